import Verif.Lemmas.Sweep.Run
import Verif.Model.Relate

/-! Sweeps with contexts which differ only in how they measure angles: relations of events are the same up to `TOUCH`
and `CROSS`. -/

set_option linter.unusedSectionVars false

namespace Orient

variable {K : Type}

/-- The context with other scalar products and distances. -/
def Context.measuring (c : Context K) (dotProduct : Point K → Point K → Point K → Point K → K)
    (pointsSquaredDistance : Point K → Point K → K) : Context K :=
  { c with dotProduct := dotProduct, pointsSquaredDistance := pointsSquaredDistance }

/-- Does not tell `CROSS` from `TOUCH`. -/
def SegmentsRelation.blur : SegmentsRelation → SegmentsRelation
  | .cross => .touch
  | r => r

/-- Tells only `OVERLAP` from the others. -/
def SegmentsRelation.dull : SegmentsRelation → SegmentsRelation
  | .overlap => .overlap
  | _ => .disjoint

namespace State

/-- The state with other relations of events. -/
def mapRelation (f : SegmentsRelation → SegmentsRelation) (s : State K) : State K :=
  { s with lefts := fun i => { s.lefts i with relation := f (s.lefts i).relation } }

/-- The states are the same except for relations of events. -/
def Shaped (s t : State K) : Prop :=
  s.mapRelation (fun _ => .disjoint) = t.mapRelation (fun _ => .disjoint)

theorem mapRelation_divide (f : SegmentsRelation → SegmentsRelation) (s : State K) (i : Nat) (p : Point K) :
    (s.mapRelation f).divide i p = (s.divide i p).mapRelation f := by
  unfold State.divide State.mapRelation
  simp only [State.mk.injEq, and_true]
  funext j
  split_ifs <;> rfl

end State

namespace eventsQueue

variable [LinearOrder K] (f : SegmentsRelation → SegmentsRelation) (c : Context K)
  (dp : Point K → Point K → Point K → Point K → K) (ds : Point K → Point K → K) (s : State K)

theorem least_blur : least (c.measuring dp ds) (s.mapRelation f) = least c s := by
  funext a l
  induction l generalizing a with
  | nil => rfl
  | cons b l ih =>
    unfold least
    rw [ih]
    rfl

theorem peek?_blur : peek? (c.measuring dp ds) (s.mapRelation f) = peek? c s := by
  unfold peek?
  rw [least_blur]
  rfl

theorem contains_blur (i : Nat) (line : List Nat) :
    sweepLine.contains (c.measuring dp ds) (s.mapRelation f) i line = sweepLine.contains c s i line := by
  induction line with
  | nil => rfl
  | cons b l ih =>
    unfold sweepLine.contains
    rw [ih]
    rfl

theorem add_blur (i : Nat) (line : List Nat) :
    sweepLine.add (c.measuring dp ds) (s.mapRelation f) i line = sweepLine.add c s i line := by
  induction line with
  | nil => rfl
  | cons b l ih =>
    unfold sweepLine.add
    rw [ih]
    rfl

theorem remove_blur (i : Nat) (line : List Nat) :
    sweepLine.remove (c.measuring dp ds) (s.mapRelation f) i line = sweepLine.remove c s i line := by
  induction line with
  | nil => rfl
  | cons b l ih =>
    unfold sweepLine.remove
    rw [ih]
    rfl

theorem above_blur (i : Nat) (line : List Nat) :
    sweepLine.above (c.measuring dp ds) (s.mapRelation f) i line = sweepLine.above c s i line := by
  induction line with
  | nil => rfl
  | cons b l ih =>
    unfold sweepLine.above
    rw [ih]
    rfl

theorem below_blur (i : Nat) (line : List Nat) :
    sweepLine.below (c.measuring dp ds) (s.mapRelation f) i line = sweepLine.below c s i line := by
  unfold sweepLine.below
  generalize none = o
  induction line generalizing o with
  | nil => rfl
  | cons b l ih =>
    unfold sweepLine.belowFrom
    rw [ih]
    rfl

theorem divideAt_blur (i j : Nat) (p : Point K) :
    divideAt (s.mapRelation f) i j p = (divideAt s i j p).mapRelation f := by
  unfold divideAt
  have e : (if p ≠ ((s.mapRelation f).lefts i).start ∧ p ≠ (s.mapRelation f).leftEnd i then
      (s.mapRelation f).divide i p else s.mapRelation f) =
      (if p ≠ (s.lefts i).start ∧ p ≠ s.leftEnd i then s.divide i p else s).mapRelation f := by
    rw [State.mapRelation_divide, apply_ite (State.mapRelation f)]
    rfl
  simp only
  rw [e]
  generalize (if p ≠ (s.lefts i).start ∧ p ≠ s.leftEnd i then s.divide i p else s) = u
  rw [State.mapRelation_divide, apply_ite (State.mapRelation f)]
  rfl

theorem divideOverlapping_blur (i j : Nat) :
    divideOverlapping (c.measuring dp ds) (s.mapRelation f) i j = (divideOverlapping c s i j).mapRelation f := by
  unfold divideOverlapping
  simp only [State.mapRelation_divide, apply_ite (State.mapRelation f)]
  rfl

theorem detectIntersectionLinear_blur (i j : Nat) :
    detectIntersectionLinear (c.measuring dp ds) (s.mapRelation f) i j =
      (detectIntersectionLinear c s i j).map (State.mapRelation f) := by
  unfold detectIntersectionLinear
  simp only [divideAt_blur, divideOverlapping_blur, apply_ite (Except.map (State.mapRelation f))]
  rfl

theorem handleLinear_blur (line : List Nat) (e : Ev) :
    handleLinear (c.measuring dp ds) (s.mapRelation f) line e =
      (handleLinear c s line e).map fun r => (r.1.mapRelation f, r.2) := by
  cases e with
  | left i =>
    unfold handleLinear
    simp only [add_blur, above_blur, below_blur]
    cases sweepLine.above c s i (sweepLine.add c s i line) with
    | none =>
      cases sweepLine.below c s i (sweepLine.add c s i line) with
      | none => rfl
      | some b =>
        simp only [detectIntersectionLinear_blur, bind, Except.bind, pure, Except.pure]
        cases detectIntersectionLinear c s b i <;> rfl
    | some a =>
      simp only [detectIntersectionLinear_blur, bind, Except.bind, pure, Except.pure]
      cases detectIntersectionLinear c s i a with
      | error e => rfl
      | ok t =>
        cases sweepLine.below c s i (sweepLine.add c s i line) with
        | none => rfl
        | some b =>
          simp only [Except.map, detectIntersectionLinear_blur]
          cases detectIntersectionLinear c t b i <;> rfl
  | right r =>
    unfold handleLinear
    simp only [show ((s.mapRelation f).rights r).left = (s.rights r).left from rfl, contains_blur, above_blur,
      below_blur, remove_blur, apply_ite (Except.map _)]
    congr 1
    split
    · simp only [detectIntersectionLinear_blur, bind, Except.bind, pure, Except.pure]
      cases detectIntersectionLinear c s _ _ <;> rfl
    · rfl

/-! ### groups of events -/

/-- The states are the same except for relations of events which are not `OVERLAP`. -/
structure Near (s t : State K) : Prop where
  shape : s.Shaped t
  dull : ∀ i, (s.lefts i).relation.dull = (t.lefts i).relation.dull

/-- The relations of an event are the same up to `TOUCH` and `CROSS`. -/
def BlurAt (s t : State K) (i : Nat) : Prop :=
  (s.lefts i).relation.blur = (t.lefts i).relation.blur

section
variable {s} {t : State K}

theorem Near.evStart (h : Near s t) (e : Ev) : s.evStart e = t.evStart e := by
  have := congrArg (fun u : State K => u.evStart e) h.shape
  exact this

theorem Near.evEnd (h : Near s t) (e : Ev) : s.evEnd e = t.evEnd e := by
  have := congrArg (fun u : State K => u.evEnd e) h.shape
  exact this

theorem Near.evOriginalStart (h : Near s t) (e : Ev) : s.evOriginalStart e = t.evOriginalStart e := by
  have := congrArg (fun u : State K => u.evOriginalStart e) h.shape
  exact this

theorem Near.evFromTest (h : Near s t) (e : Ev) : s.evFromTest e = t.evFromTest e := by
  have := congrArg (fun u : State K => u.evFromTest e) h.shape
  exact this

theorem Near.leftOf (h : Near s t) (e : Ev) : s.leftOf e = t.leftOf e := by
  have := congrArg (fun u : State K => u.leftOf e) h.shape
  exact this

theorem Near.leftEnd (h : Near s t) (i : Nat) : s.leftEnd i = t.leftEnd i := by
  have := congrArg (fun u : State K => u.leftEnd i) h.shape
  exact this

theorem Near.left (h : Near s t) (i : Nat) :
    ({ s.lefts i with relation := .disjoint } : LeftEvent K) = { t.lefts i with relation := .disjoint } := by
  have := congrArg (fun u : State K => u.lefts i) h.shape
  exact this

theorem Near.start (h : Near s t) (i : Nat) : (s.lefts i).start = (t.lefts i).start := by
  have := congrArg LeftEvent.start (h.left i)
  exact this

theorem Near.fromTest (h : Near s t) (i : Nat) : (s.lefts i).fromTest = (t.lefts i).fromTest := by
  have := congrArg LeftEvent.fromTest (h.left i)
  exact this

theorem shaped_setRelation {i : Nat} {r : SegmentsRelation} : (s.setRelation i r).Shaped s := by
  unfold State.Shaped State.mapRelation State.setRelation State.setLeft
  simp only [State.mk.injEq, and_true]
  funext j
  split_ifs <;> rfl

theorem shaped_raiseRelation {i : Nat} {r : SegmentsRelation} : (s.raiseRelation i r).Shaped s := by
  unfold State.Shaped State.mapRelation State.raiseRelation State.setLeft
  simp only [State.mk.injEq, and_true]
  funext j
  split_ifs <;> rfl

theorem relation_setRelation (i j : Nat) (r : SegmentsRelation) :
    ((s.setRelation i r).lefts j).relation = if j = i then r else (s.lefts j).relation := by
  unfold State.setRelation State.setLeft
  simp only
  split_ifs <;> rfl

theorem relation_raiseRelation (i j : Nat) (r : SegmentsRelation) :
    ((s.raiseRelation i r).lefts j).relation = if j = i then (s.lefts j).relation.max r else (s.lefts j).relation := by
  unfold State.raiseRelation State.setLeft
  simp only
  split_ifs <;> rfl

theorem dull_max {a b r : SegmentsRelation} (h : a.dull = b.dull) : (a.max r).dull = (b.max r).dull := by
  revert h
  cases a <;> cases b <;> cases r <;> decide

theorem blur_max {a b r : SegmentsRelation} (h : a.blur = b.blur) : (a.max r).blur = (b.max r).blur := by
  revert h
  cases a <;> cases b <;> cases r <;> decide

theorem blur_max_of_dull {a b r : SegmentsRelation} (hr : r ≠ .disjoint) (h : a.dull = b.dull) :
    (a.max r).blur = (b.max r).blur := by
  revert h hr
  cases a <;> cases b <;> cases r <;> decide

theorem Near.setRelation (h : Near s t) (i : Nat) (r : SegmentsRelation) :
    Near (s.setRelation i r) (t.setRelation i r) := by
  refine ⟨shaped_setRelation.trans (h.shape.trans shaped_setRelation.symm), fun j => ?_⟩
  rw [relation_setRelation, relation_setRelation]
  split_ifs
  · rfl
  · exact h.dull j

theorem Near.raiseRelation (h : Near s t) (i : Nat) (r : SegmentsRelation) :
    Near (s.raiseRelation i r) (t.raiseRelation i r) := by
  refine ⟨shaped_raiseRelation.trans (h.shape.trans shaped_raiseRelation.symm), fun j => ?_⟩
  rw [relation_raiseRelation, relation_raiseRelation]
  split_ifs
  · exact dull_max (h.dull j)
  · exact h.dull j

theorem BlurAt.setRelation {j : Nat} (h : BlurAt s t j) (i : Nat) (r : SegmentsRelation) :
    BlurAt (s.setRelation i r) (t.setRelation i r) j := by
  unfold BlurAt
  rw [relation_setRelation, relation_setRelation]
  split_ifs
  · rfl
  · exact h

theorem BlurAt.raiseRelation {j : Nat} (h : BlurAt s t j) (i : Nat) (r : SegmentsRelation) :
    BlurAt (s.raiseRelation i r) (t.raiseRelation i r) j := by
  unfold BlurAt
  rw [relation_raiseRelation, relation_raiseRelation]
  split_ifs
  · exact blur_max h
  · exact h

theorem blurAt_setRelation (i : Nat) (r : SegmentsRelation) : BlurAt (s.setRelation i r) (t.setRelation i r) i := by
  unfold BlurAt
  rw [relation_setRelation, relation_setRelation, if_pos rfl, if_pos rfl]

theorem Near.blurAt_raiseRelation (h : Near s t) (i : Nat) {r : SegmentsRelation} (hr : r ≠ .disjoint) :
    BlurAt (s.raiseRelation i r) (t.raiseRelation i r) i := by
  unfold BlurAt
  rw [relation_raiseRelation, relation_raiseRelation, if_pos rfl, if_pos rfl]
  exact blur_max_of_dull hr (h.dull i)

/-- What one step of `complete_events_relations` does with both states. -/
theorem Near.completePair (h : Near s t) (e e' : Ev) :
    Near (completePair s e e') (completePair t e e') ∧
    (∀ i, BlurAt s t i → BlurAt (completePair s e e') (completePair t e e') i) ∧
    (s.evFromTest e ≠ s.evFromTest e' → BlurAt (completePair s e e') (completePair t e e') (s.leftOf e) ∧
      BlurAt (completePair s e e') (completePair t e e') (s.leftOf e')) := by
  unfold eventsQueue.completePair
  simp only [← h.leftOf, ← h.fromTest, ← h.start, ← h.leftEnd, ← h.evStart, ← h.evOriginalStart]
  split_ifs with h1 h2 h3
  · exact ⟨h, fun i hi => hi, fun hn => absurd h1.symm hn⟩
  · exact ⟨(h.setRelation _ _).setRelation _ _, fun i hi => (hi.setRelation _ _).setRelation _ _,
      fun _ => ⟨(blurAt_setRelation _ _).setRelation _ _, blurAt_setRelation _ _⟩⟩
  · exact ⟨(h.raiseRelation _ _).raiseRelation _ _, fun i hi => (hi.raiseRelation _ _).raiseRelation _ _,
      fun _ => ⟨(h.blurAt_raiseRelation _ (by decide)).raiseRelation _ _,
        (h.raiseRelation _ _).blurAt_raiseRelation _ (by decide)⟩⟩
  · exact ⟨(h.raiseRelation _ _).raiseRelation _ _, fun i hi => (hi.raiseRelation _ _).raiseRelation _ _,
      fun _ => ⟨(h.blurAt_raiseRelation _ (by decide)).raiseRelation _ _,
        (h.raiseRelation _ _).blurAt_raiseRelation _ (by decide)⟩⟩

theorem shaped_completePair (e e' : Ev) : (completePair s e e').Shaped s := by
  unfold eventsQueue.completePair
  simp only
  split_ifs
  · rfl
  · exact shaped_setRelation.trans shaped_setRelation
  · exact shaped_raiseRelation.trans shaped_raiseRelation
  · exact shaped_raiseRelation.trans shaped_raiseRelation

theorem _root_.Orient.State.Shaped.leftOf (h : s.Shaped t) (e : Ev) : s.leftOf e = t.leftOf e := by
  have := congrArg (fun u : State K => u.leftOf e) h
  exact this

theorem _root_.Orient.State.Shaped.evFromTest (h : s.Shaped t) (e : Ev) : s.evFromTest e = t.evFromTest e := by
  have := congrArg (fun u : State K => u.evFromTest e) h
  exact this

theorem shaped_fold (e : Ev) (l : List Ev) : (l.foldl (fun s e' => completePair s e e') s).Shaped s := by
  induction l generalizing s with
  | nil => rfl
  | cons a l ih => exact (ih (s := completePair s e a)).trans (shaped_completePair e a)

theorem Near.foldPairs (h : Near s t) (e : Ev) (l : List Ev) :
    Near (l.foldl (fun s e' => eventsQueue.completePair s e e') s) (l.foldl (fun s e' => eventsQueue.completePair s e e') t) ∧
    (∀ i, BlurAt s t i → BlurAt (l.foldl (fun s e' => eventsQueue.completePair s e e') s)
      (l.foldl (fun s e' => eventsQueue.completePair s e e') t) i) ∧
    (∀ e' ∈ l, s.evFromTest e ≠ s.evFromTest e' →
      BlurAt (l.foldl (fun s e' => eventsQueue.completePair s e e') s)
        (l.foldl (fun s e' => eventsQueue.completePair s e e') t) (s.leftOf e) ∧
      BlurAt (l.foldl (fun s e' => eventsQueue.completePair s e e') s)
        (l.foldl (fun s e' => eventsQueue.completePair s e e') t) (s.leftOf e')) := by
  induction l generalizing s t with
  | nil => exact ⟨h, fun i hi => hi, fun e' he => absurd he (by simp)⟩
  | cons a l ih =>
    obtain ⟨n1, k1, f1⟩ := h.completePair e a
    obtain ⟨n2, k2, f2⟩ := ih n1
    have sh := shaped_completePair (s := s) e a
    refine ⟨n2, fun i hi => k2 i (k1 i hi), fun e' he' hne => ?_⟩
    rcases List.mem_cons.mp he' with rfl | he'
    · exact ⟨k2 _ (f1 hne).1, k2 _ (f1 hne).2⟩
    · have := f2 e' he' (by rwa [sh.evFromTest, sh.evFromTest])
      rwa [sh.leftOf, sh.leftOf] at this

/-- What is emitted, with the relation changed. -/
def Emitted.mapRelation (f : SegmentsRelation → SegmentsRelation) (e : Emitted K) : Emitted K :=
  { e with relation := f e.relation }

theorem Near.emit (h : Near s t) {i : Nat} (hi : BlurAt s t i) :
    (emit s i).mapRelation SegmentsRelation.blur = (emit t i).mapRelation SegmentsRelation.blur := by
  have h1 := h.left i
  have h2 := h.leftEnd i
  unfold BlurAt at hi
  unfold eventsQueue.emit Emitted.mapRelation
  simp only [LeftEvent.mk.injEq] at h1
  simp only [h1, h2, hi]

/-- Events of the group on both sides get relations other than `DISJOINT`. -/
theorem Near.completeEventsRelations (h : Near s t) {group : List Ev}
    (hg : ∀ i, BlurAt s t i ∨ ∃ e ∈ group, ∃ e' ∈ group, s.leftOf e = i ∧ s.evFromTest e ≠ s.evFromTest e') :
    Near (completeEventsRelations s group).2 (completeEventsRelations t group).2 ∧
    (∀ i, BlurAt (completeEventsRelations s group).2 (completeEventsRelations t group).2 i) ∧
    (completeEventsRelations s group).1.map (Emitted.mapRelation SegmentsRelation.blur) =
      (completeEventsRelations t group).1.map (Emitted.mapRelation SegmentsRelation.blur) := by
  induction group generalizing s t with
  | nil =>
    refine ⟨h, fun i => ?_, rfl⟩
    rcases hg i with h1 | ⟨e, he, -⟩
    · exact h1
    · simp at he
  | cons first rest ih =>
    obtain ⟨n1, k1, f1⟩ := h.foldPairs first rest
    have sh := shaped_fold (s := s) first rest
    obtain ⟨n2, b2, e2⟩ := ih n1 (fun i => by
      rcases hg i with hb | ⟨e, he, e', he', rfl, hne⟩
      · exact .inl (k1 i hb)
      · rcases List.mem_cons.mp he with rfl | h1
        · rcases List.mem_cons.mp he' with rfl | h2
          · exact absurd rfl hne
          · exact .inl (f1 e' h2 hne).1
        · rcases List.mem_cons.mp he' with rfl | h2
          · exact .inl (f1 e h1 hne.symm).2
          · exact .inr ⟨e, h1, e', h2, sh.leftOf e, by rwa [sh.evFromTest, sh.evFromTest]⟩)
    unfold eventsQueue.completeEventsRelations
    refine ⟨n2, b2, ?_⟩
    simp only [List.map_cons, e2, ← n1.leftOf]
    congr 1
    refine n1.emit ?_
    rw [sh.leftOf]
    rcases hg (s.leftOf first) with hb | ⟨e, -, e', he', hi, hne⟩
    · exact k1 _ hb
    · have h3 : s.evFromTest e = s.evFromTest first := by
        unfold State.evFromTest
        rw [hi]
      rw [h3] at hne
      rcases List.mem_cons.mp he' with rfl | he'
      · exact absurd rfl hne
      · exact (f1 e' he' hne).1

end

section
variable [Field K] {s t : State K} {dp ds c}

/-- The states are the same up to relations `TOUCH` and `CROSS`. -/
def Blurred (s t : State K) : Prop := s.mapRelation SegmentsRelation.blur = t.mapRelation SegmentsRelation.blur

theorem blurred_iff : Blurred s t ↔ Near s t ∧ ∀ i, BlurAt s t i := by
  constructor
  · intro h
    have key : ∀ i, BlurAt s t i := fun i => congrArg (fun u : State K => (u.lefts i).relation) h
    refine ⟨⟨?_, fun i => ?_⟩, key⟩
    · have := congrArg (State.mapRelation fun _ => .disjoint) h
      exact this
    · have := key i
      unfold BlurAt at this
      revert this
      generalize (s.lefts i).relation = a
      generalize (t.lefts i).relation = b
      cases a <;> cases b <;> decide
  · rintro ⟨h1, h2⟩
    have hs := h1.shape
    unfold State.Shaped State.mapRelation at hs
    unfold Blurred State.mapRelation
    simp only [State.mk.injEq] at hs ⊢
    refine ⟨funext fun i => ?_, hs.2⟩
    have h3 := h1.left i
    have h4 : _ = _ := h2 i
    simp only [LeftEvent.mk.injEq] at h3 ⊢
    simp only [h3, h4, true_and, and_self]

/-- Either nothing is done or events of a group with events of both operands become `CROSS`. -/
theorem detectCrossingAngles_raises (c : Context K) (s : State K) (group : List Ev) :
    detectCrossingAngles c s group = s ∨
    (∃ e ∈ group, ∃ e' ∈ group, s.evFromTest e = true ∧ s.evFromTest e' = false) ∧
      detectCrossingAngles c s group =
        group.foldl (fun s event => s.raiseRelation (s.leftOf event) .cross) s := by
  unfold detectCrossingAngles
  simp only
  split_ifs with h1
  · exact .inl rfl
  · split
    · next first rest goal goals hq =>
      split_ifs
      · exact .inl rfl
      · refine .inr ⟨?_, rfl⟩
        push Not at h1
        have ht : 0 < ((first :: rest).filter (fun event => s.evFromTest event)).length := by omega
        obtain ⟨e, he⟩ := List.exists_mem_of_length_pos ht
        have hg : goal ∈ (first :: rest).filter (fun event => !s.evFromTest event) := by
          rw [hq]
          exact List.mem_cons_self
        refine ⟨e, List.mem_of_mem_filter he, goal, List.mem_of_mem_filter hg, ?_, ?_⟩
        · simpa using (List.mem_filter.mp he).2
        · simpa using (List.mem_filter.mp hg).2
    · exact .inl rfl

theorem shaped_raise (group : List Ev) :
    (group.foldl (fun s event => s.raiseRelation (s.leftOf event) .cross) s).Shaped s := by
  induction group generalizing s with
  | nil => rfl
  | cons e group ih =>
    exact (ih (s := s.raiseRelation (s.leftOf e) .cross)).trans shaped_raiseRelation

theorem near_raise (group : List Ev) :
    Near (group.foldl (fun s event => s.raiseRelation (s.leftOf event) .cross) s) s ∧
    ∀ i, BlurAt (group.foldl (fun s event => s.raiseRelation (s.leftOf event) .cross) s) s i ∨
      ∃ e ∈ group, s.leftOf e = i := by
  induction group generalizing s with
  | nil => exact ⟨⟨rfl, fun _ => rfl⟩, fun _ => .inl rfl⟩
  | cons e group ih =>
    obtain ⟨h1, h2⟩ := ih (s := s.raiseRelation (s.leftOf e) .cross)
    have sh : (s.raiseRelation (s.leftOf e) .cross).Shaped s := shaped_raiseRelation
    refine ⟨⟨h1.shape.trans sh, fun i => (h1.dull i).trans ?_⟩, fun i => ?_⟩
    · rw [relation_raiseRelation]
      split_ifs
      · generalize (s.lefts i).relation = a
        cases a <;> decide
      · rfl
    · rcases h2 i with h2 | ⟨e', he', h2⟩
      · by_cases hi : i = s.leftOf e
        · exact .inr ⟨e, by simp, hi.symm⟩
        · refine .inl (h2.trans ?_)
          rw [relation_raiseRelation, if_neg hi]
      · exact .inr ⟨e', by simp [he'], by rw [← h2, sh.leftOf]⟩

theorem Near.symm (h : Near s t) : Near t s := ⟨h.shape.symm, fun i => (h.dull i).symm⟩

theorem Near.trans {u : State K} (h : Near s t) (h' : Near t u) : Near s u :=
  ⟨h.shape.trans h'.shape, fun i => (h.dull i).trans (h'.dull i)⟩

theorem closeGroup_blur (c c' : Context K) (h : Blurred s t) (group : List Ev) :
    Blurred (closeGroup true c s group).2 (closeGroup true c' t group).2 ∧
    (closeGroup true c s group).1.map (Emitted.mapRelation SegmentsRelation.blur) =
      (closeGroup true c' t group).1.map (Emitted.mapRelation SegmentsRelation.blur) := by
  obtain ⟨hn, hb⟩ := blurred_iff.mp h
  unfold closeGroup
  rw [if_pos rfl, if_pos rfl]
  suffices hk : Near (detectCrossingAngles c s group) (detectCrossingAngles c' t group) ∧
      ∀ i, BlurAt (detectCrossingAngles c s group) (detectCrossingAngles c' t group) i ∨
        ∃ e ∈ group, ∃ e' ∈ group, (detectCrossingAngles c s group).leftOf e = i ∧
          (detectCrossingAngles c s group).evFromTest e ≠ (detectCrossingAngles c s group).evFromTest e' by
    obtain ⟨k1, k2, k3⟩ := hk.1.completeEventsRelations hk.2
    exact ⟨blurred_iff.mpr ⟨k1, k2⟩, k3⟩
  have opposite : ∀ {u : State K}, u.Shaped s →
      (∃ e ∈ group, ∃ e' ∈ group, s.evFromTest e = true ∧ s.evFromTest e' = false) → ∀ i, (∃ e ∈ group, s.leftOf e = i) →
      ∃ e ∈ group, ∃ e' ∈ group, u.leftOf e = i ∧ u.evFromTest e ≠ u.evFromTest e' := by
    rintro u hu ⟨a, ha, b, hb, h1, h2⟩ i ⟨e, he, rfl⟩
    simp only [hu.leftOf, hu.evFromTest]
    by_cases h3 : s.evFromTest e = true
    · exact ⟨e, he, b, hb, rfl, by simp [h3, h2]⟩
    · exact ⟨e, he, a, ha, rfl, by simpa [h1] using h3⟩
  obtain ⟨rs, qs⟩ := near_raise (s := s) group
  obtain ⟨rt, qt⟩ := near_raise (s := t) group
  rcases detectCrossingAngles_raises c s group with e1 | ⟨m1, e1⟩ <;>
    rcases detectCrossingAngles_raises c' t group with e2 | ⟨m2, e2⟩ <;> rw [e1, e2]
  · exact ⟨hn, fun i => .inl (hb i)⟩
  · refine ⟨hn.trans rt.symm, fun i => ?_⟩
    rcases qt i with q | ⟨e, he, q⟩
    · exact .inl ((hb i).trans q.symm)
    · simp only [← hn.evFromTest] at m2
      exact .inr (opposite rfl m2 i ⟨e, he, by rw [hn.leftOf, q]⟩)
  · refine ⟨rs.trans hn, fun i => ?_⟩
    rcases qs i with q | q
    · exact .inl (q.trans (hb i))
    · exact .inr (opposite rs.shape m1 i q)
  · refine ⟨rs.trans (hn.trans rt.symm), fun i => ?_⟩
    rcases qs i with q | q
    · rcases qt i with q' | ⟨e, he, q'⟩
      · exact .inl (q.trans ((hb i).trans q'.symm))
      · exact .inr (opposite rs.shape m1 i ⟨e, he, by rw [hn.leftOf, q']⟩)
    · exact .inr (opposite rs.shape m1 i q)

theorem handleLinear_blurred (c : Context K) (dp : Point K → Point K → Point K → Point K → K)
    (ds : Point K → Point K → K) (h : Blurred s t) (line : List Nat) (e : Ev) :
    (handleLinear c s line e).map (fun r => (r.1.mapRelation SegmentsRelation.blur, r.2)) =
    (handleLinear (c.measuring dp ds) t line e).map (fun r => (r.1.mapRelation SegmentsRelation.blur, r.2)) := by
  have h1 := handleLinear_blur SegmentsRelation.blur c dp ds s line e
  have h2 := handleLinear_blur SegmentsRelation.blur (c.measuring dp ds) dp ds t line e
  rw [← h1, ← h2, show s.mapRelation SegmentsRelation.blur = t.mapRelation SegmentsRelation.blur from h]
  rfl

theorem Blurred.pop (h : Blurred s t) (e : Ev) :
    Blurred { s with queue := s.queue.erase e } { t with queue := t.queue.erase e } := by
  have := congrArg (fun u : State K => { u with queue := u.queue.erase e }) h
  exact this

theorem peek?_blurred (h : Blurred s t) : peek? c s = peek? (c.measuring dp ds) t := by
  rw [← peek?_blur SegmentsRelation.blur c dp ds s, ← peek?_blur SegmentsRelation.blur (c.measuring dp ds) dp ds t,
    show s.mapRelation SegmentsRelation.blur = t.mapRelation SegmentsRelation.blur from h]
  rfl

/-- The loops emit the same up to relations `TOUCH` and `CROSS`. -/
theorem sweepLoop_blur (c : Context K) (dp : Point K → Point K → Point K → Point K → K) (ds : Point K → Point K → K)
    (stopX : K) (fuel : Nat) (h : Blurred s t) (line : List Nat) (start : Option (Point K)) (group : List Ev) :
    (sweepLoop true c stopX fuel s line start group).1.map (Emitted.mapRelation SegmentsRelation.blur) =
      (sweepLoop true (c.measuring dp ds) stopX fuel t line start group).1.map
        (Emitted.mapRelation SegmentsRelation.blur) ∧
    (sweepLoop true c stopX fuel s line start group).2.map (State.mapRelation SegmentsRelation.blur) =
      (sweepLoop true (c.measuring dp ds) stopX fuel t line start group).2.map
        (State.mapRelation SegmentsRelation.blur) := by
  induction fuel generalizing s t line start group with
  | zero => exact ⟨rfl, rfl⟩
  | succ fuel ih =>
    have hn := (blurred_iff.mp h).1
    obtain ⟨g1, g2⟩ := closeGroup_blur c (c.measuring dp ds) h group
    unfold sweepLoop
    simp only [if_true]
    rw [← peek?_blurred h]
    cases peek? c s with
    | none => exact ⟨g2, congrArg Except.ok g1⟩
    | some e =>
      simp only [← hn.evStart]
      by_cases hx : (s.evStart e).x > stopX
      · simp only [if_pos hx]
        exact ⟨g2, congrArg Except.ok g1⟩
      · simp only [if_neg hx]
        have hp := h.pop e
        obtain ⟨g1, g2⟩ := closeGroup_blur c (c.measuring dp ds) hp group
        have e1 : State.evStart { s with queue := s.queue.erase e } e =
            State.evStart { t with queue := t.queue.erase e } e := (blurred_iff.mp hp).1.evStart e
        have e2 := (blurred_iff.mp g1).1.evStart e
        rw [← e1]
        by_cases hst : some (State.evStart { s with queue := s.queue.erase e } e) = start
        · simp only [hst, decide_true, if_true]
          have hh := handleLinear_blurred c dp ds hp line e
          cases hs : handleLinear c { s with queue := s.queue.erase e } line e with
          | error x =>
            rw [hs] at hh
            cases ht : handleLinear (c.measuring dp ds) { t with queue := t.queue.erase e } line e with
            | error y =>
              rw [ht] at hh
              simp only [Except.map, Except.error.injEq] at hh
              subst hh
              exact ⟨rfl, rfl⟩
            | ok y =>
              rw [ht] at hh
              cases hh
          | ok x =>
            rw [hs] at hh
            cases ht : handleLinear (c.measuring dp ds) { t with queue := t.queue.erase e } line e with
            | error y =>
              rw [ht] at hh
              cases hh
            | ok y =>
              rw [ht] at hh
              simp only [Except.map, Except.ok.injEq, Prod.mk.injEq] at hh
              obtain ⟨i1, i2⟩ := ih (s := x.1) (t := y.1) hh.1 x.2 start (group ++ [e])
              rw [hh.2] at i1 i2
              simp only [List.nil_append, hh.2]
              exact ⟨i1, i2⟩
        · simp only [hst, decide_false, Bool.false_eq_true, if_false, ← e2]
          have hh := handleLinear_blurred c dp ds g1 line e
          cases hs : handleLinear c (closeGroup true c { s with queue := s.queue.erase e } group).2 line e with
          | error x =>
            rw [hs] at hh
            cases ht : handleLinear (c.measuring dp ds)
                (closeGroup true (c.measuring dp ds) { t with queue := t.queue.erase e } group).2 line e with
            | error y =>
              rw [ht] at hh
              simp only [Except.map, Except.error.injEq] at hh
              subst hh
              exact ⟨g2, rfl⟩
            | ok y =>
              rw [ht] at hh
              cases hh
          | ok x =>
            rw [hs] at hh
            cases ht : handleLinear (c.measuring dp ds)
                (closeGroup true (c.measuring dp ds) { t with queue := t.queue.erase e } group).2 line e with
            | error y =>
              rw [ht] at hh
              cases hh
            | ok y =>
              rw [ht] at hh
              simp only [Except.map, Except.ok.injEq, Prod.mk.injEq] at hh
              obtain ⟨i1, i2⟩ := ih (s := x.1) (t := y.1) hh.1 x.2
                (some ((closeGroup true c { s with queue := s.queue.erase e } group).2.evStart e)) [e]
              rw [hh.2] at i1 i2
              simp only [List.map_append, g2, hh.2, i1]
              exact ⟨trivial, i2⟩

/-- The variables of `process_open_linear_queue` are the same up to `TOUCH` and `CROSS`. -/
structure SameVars (v w : processing.OpenLinear) : Prop where
  test : v.testIsSubset = w.testIsSubset
  goal : v.goalIsSubset = w.goalIsSubset
  overlap : v.hasNoOverlap = w.hasNoOverlap
  meets : (v.hasNoCross && v.hasNoTouch) = (w.hasNoCross && w.hasNoTouch)

theorem SameVars.step {v w : processing.OpenLinear} (h : SameVars v w) {e e' : Emitted K}
    (he : e.mapRelation SegmentsRelation.blur = e'.mapRelation SegmentsRelation.blur) :
    SameVars (v.step e) (w.step e') := by
  have h1 : e.fromTest = e'.fromTest := by
    have := congrArg Emitted.fromTest he
    exact this
  have h2 : e.relation.blur = e'.relation.blur := by
    have := congrArg Emitted.relation he
    exact this
  obtain ⟨a, b, o, m⟩ := h
  unfold processing.OpenLinear.step
  rw [h1]
  generalize e.relation = r at h2
  generalize e'.relation = r' at h2
  obtain ⟨v1, v2, v3, v4, v5⟩ := v
  obtain ⟨w1, w2, w3, w4, w5⟩ := w
  simp only at a b o m
  subst a b o
  generalize e'.fromTest = x
  constructor <;> revert h2 m <;> cases r <;> cases r' <;> cases x <;> cases v5 <;>
    simp [SegmentsRelation.blur]

theorem SameVars.foldl {v w : processing.OpenLinear} (h : SameVars v w) {l l' : List (Emitted K)}
    (hl : l.map (Emitted.mapRelation SegmentsRelation.blur) = l'.map (Emitted.mapRelation SegmentsRelation.blur)) :
    SameVars (l.foldl processing.OpenLinear.step v) (l'.foldl processing.OpenLinear.step w) := by
  induction l generalizing v w l' with
  | nil =>
    cases l' with
    | nil => exact h
    | cons a l' => simp at hl
  | cons e l ih =>
    cases l' with
    | nil => simp at hl
    | cons e' l' =>
      simp only [List.map_cons, List.cons.injEq] at hl
      exact ih (h.step hl.1) hl.2

theorem SameVars.rest {v w : processing.OpenLinear} (h : SameVars v w) (o : Option Bool) :
    SameVars (v.rest o) (w.rest o) := by
  rcases o with - | - | -
  · exact h
  · exact ⟨h.test, rfl, h.overlap, h.meets⟩
  · exact ⟨rfl, h.goal, h.overlap, h.meets⟩

theorem SameVars.result {v w : processing.OpenLinear} (h : SameVars v w) :
    v.result = w.result ∨ v.result = .touch ∧ w.result = .cross ∨ v.result = .cross ∧ w.result = .touch := by
  obtain ⟨a, b, o, m⟩ := h
  unfold processing.OpenLinear.result
  rw [a, b, o]
  split_ifs <;> simp_all

/-- Whatever scalar products and distances are, the answer is the same up to `TOUCH` and `CROSS`. -/
theorem runOpenLinear_blur (c : Context K) (dp : Point K → Point K → Point K → Point K → K) (ds : Point K → Point K → K)
    (s : State K) (stopX : K) :
    runOpenLinear c s stopX = runOpenLinear (c.measuring dp ds) s stopX ∨
    runOpenLinear c s stopX = .ok .touch ∧ runOpenLinear (c.measuring dp ds) s stopX = .ok .cross ∨
    runOpenLinear c s stopX = .ok .cross ∧ runOpenLinear (c.measuring dp ds) s stopX = .ok .touch := by
  have hp : peek? c s = peek? (c.measuring dp ds) s := peek?_blurred rfl
  obtain ⟨h1, h2⟩ := sweepLoop_blur (s := s) (t := s) c dp ds stopX (enoughFuel s) rfl []
    ((peek? c s).map s.evStart) []
  have e1 : sweep true c stopX s = sweepLoop true c stopX (enoughFuel s) s [] ((peek? c s).map s.evStart) [] := by
    unfold sweep
    exact Eq.refl _
  have e2 : sweep true (c.measuring dp ds) stopX s =
      sweepLoop true (c.measuring dp ds) stopX (enoughFuel s) s [] ((peek? c s).map s.evStart) [] := by
    unfold sweep
    rw [hp]
  rw [← e1, ← e2] at h1 h2
  unfold runOpenLinear processing.processOpenLinearQueue
  cases hs : (sweep true c stopX s).2 with
  | error x =>
    cases ht : (sweep true (c.measuring dp ds) stopX s).2 with
    | error y =>
      rw [hs, ht] at h2
      simp only [Except.map, Except.error.injEq] at h2
      simp only [bind, Except.bind, h2, true_or]
    | ok y =>
      rw [hs, ht] at h2
      cases h2
  | ok x =>
    cases ht : (sweep true (c.measuring dp ds) stopX s).2 with
    | error y =>
      rw [hs, ht] at h2
      cases h2
    | ok y =>
      rw [hs, ht] at h2
      simp only [Except.map, Except.ok.injEq] at h2
      have hb : Blurred x y := h2
      have hpk : processing.peekFromTest c x = processing.peekFromTest (c.measuring dp ds) y := by
        unfold processing.peekFromTest
        rw [← peek?_blurred (c := c) (dp := dp) (ds := ds) hb]
        congr 1
        exact funext (blurred_iff.mp hb).1.evFromTest
      have := ((SameVars.foldl (v := {}) (w := {}) ⟨rfl, rfl, rfl, rfl⟩ h1).rest
        (processing.peekFromTest c x)).result
      simp only [bind, Except.bind, pure, Except.pure, Except.ok.injEq]
      rw [← hpk]
      exact this

end

end eventsQueue

end Orient
