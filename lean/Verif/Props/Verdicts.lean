import Verif.Props.Ranges

/-! C28: the verdicts as functions of what the sweep reports. -/

set_option linter.unusedSectionVars false
set_option linter.unusedSimpArgs false

namespace Orient.Props

open processing eventsQueue

variable {K : Type} [Field K] [LinearOrder K]

/-- The queue still holds an event of the test geometry (`b = true`) or of the goal (`b = false`),
and it is the next one. -/
def NextFrom (context : Context K) (s : State K) (b : Bool) : Prop := peekFromTest context s = some b

/-! ### Flags after the loops -/

theorem openLinear_fold (l : List (Emitted K)) (v : OpenLinear) :
    ((l.foldl OpenLinear.step v).testIsSubset = true ↔
      v.testIsSubset = true ∧ ∀ e ∈ l, e.fromTest = true → e.relation = .overlap) ∧
    ((l.foldl OpenLinear.step v).goalIsSubset = true ↔
      v.goalIsSubset = true ∧ ∀ e ∈ l, e.fromTest = false → e.relation = .overlap) ∧
    ((l.foldl OpenLinear.step v).hasNoOverlap = true ↔
      v.hasNoOverlap = true ∧ ∀ e ∈ l, e.relation ≠ .overlap) ∧
    ((l.foldl OpenLinear.step v).hasNoOverlap = true →
      ((l.foldl OpenLinear.step v).hasNoCross = true ↔
        v.hasNoCross = true ∧ ∀ e ∈ l, e.relation ≠ .cross) ∧
      ((l.foldl OpenLinear.step v).hasNoTouch = true ↔
        v.hasNoTouch = true ∧ ∀ e ∈ l, e.relation ≠ .touch)) := by
  induction l generalizing v with
  | nil => simp
  | cons e l ih =>
    obtain ⟨h1, h2, h3, h4⟩ := ih (v.step e)
    rw [List.foldl_cons]
    simp only [List.mem_cons, forall_eq_or_imp]
    have hstep : ((v.step e).testIsSubset = true ↔ v.testIsSubset = true ∧
          (e.fromTest = true → e.relation = .overlap)) ∧
        ((v.step e).goalIsSubset = true ↔ v.goalIsSubset = true ∧
          (e.fromTest = false → e.relation = .overlap)) ∧
        ((v.step e).hasNoOverlap = true ↔ v.hasNoOverlap = true ∧ e.relation ≠ .overlap) ∧
        ((v.step e).hasNoOverlap = true →
          ((v.step e).hasNoCross = true ↔ v.hasNoCross = true ∧ e.relation ≠ .cross) ∧
          ((v.step e).hasNoTouch = true ↔ v.hasNoTouch = true ∧ e.relation ≠ .touch)) := by
      unfold OpenLinear.step
      cases e.fromTest <;> cases e.relation <;> cases v.hasNoOverlap <;> simp
    obtain ⟨g1, g2, g3, g4⟩ := hstep
    refine ⟨?_, ?_, ?_, ?_⟩
    · rw [h1, g1]; exact and_assoc
    · rw [h2, g2]; exact and_assoc
    · rw [h3, g3]; exact and_assoc
    · intro h
      have hs := (h3.mp h).1
      rw [(h4 h).1, (h4 h).2, (g4 hs).1, (g4 hs).2]
      exact ⟨and_assoc, and_assoc⟩

/-- C28, `multisegment_in_multisegment` and `multisegment_in_contour`: the verdict in terms of the
reported pieces.  `T` says that nothing of the test geometry is left over: all its reported pieces
overlap with the goal, and it is not the next in the queue; `G` says the same of the goal. -/
theorem C28_open_linear (context : Context K) (events : List (Emitted K)) (s : State K) :
    let T := (∀ e ∈ events, e.fromTest = true → e.relation = .overlap) ∧ ¬ NextFrom context s true
    let G := (∀ e ∈ events, e.fromTest = false → e.relation = .overlap) ∧ ¬ NextFrom context s false
    ∃ r, processOpenLinearQueue context (events, .ok s) = .ok r ∧
    (r = .equal ↔ T ∧ G) ∧ (r = .component ↔ T ∧ ¬ G) ∧ (r = .composite ↔ ¬ T ∧ G) ∧
    (r = .overlap ↔ ¬ T ∧ ¬ G ∧ ∃ e ∈ events, e.relation = .overlap) ∧
    (r = .cross ↔ ¬ T ∧ ¬ G ∧ (∀ e ∈ events, e.relation ≠ .overlap) ∧
      ∃ e ∈ events, e.relation = .cross) ∧
    (r = .touch ↔ ¬ T ∧ ¬ G ∧ (∀ e ∈ events, e.relation ≠ .overlap ∧ e.relation ≠ .cross) ∧
      ∃ e ∈ events, e.relation = .touch) ∧
    (r = .disjoint ↔ ¬ T ∧ ¬ G ∧ ∀ e ∈ events, e.relation = .disjoint) := by
  intro T G
  refine ⟨_, rfl, ?_⟩
  obtain ⟨h1, h2, h3, h4⟩ := openLinear_fold events {}
  generalize hv : events.foldl OpenLinear.step {} = v at h1 h2 h3 h4
  have hT : (v.rest (peekFromTest context s)).testIsSubset = true ↔ T := by
    simp only [T, NextFrom]
    simp only [true_and] at h1
    rw [← h1]
    unfold OpenLinear.rest
    cases peekFromTest context s with
    | none => simp
    | some b => cases b <;> simp
  have hG : (v.rest (peekFromTest context s)).goalIsSubset = true ↔ G := by
    simp only [G, NextFrom]
    simp only [true_and] at h2
    rw [← h2]
    unfold OpenLinear.rest
    cases peekFromTest context s with
    | none => simp
    | some b => cases b <;> simp
  have hr : (v.rest (peekFromTest context s)).hasNoOverlap = v.hasNoOverlap ∧
      (v.rest (peekFromTest context s)).hasNoCross = v.hasNoCross ∧
      (v.rest (peekFromTest context s)).hasNoTouch = v.hasNoTouch := by
    unfold OpenLinear.rest
    cases peekFromTest context s with
    | none => simp
    | some b => cases b <;> simp
  generalize v.rest (peekFromTest context s) = w at hT hG hr
  rw [← hr.1, ← hr.2.1, ← hr.2.2] at h4
  rw [← hr.1] at h3
  simp only [true_and] at h3 h4
  have hne : (∀ e ∈ events, e.relation = .disjoint) ↔ (∀ e ∈ events, e.relation ≠ .overlap) ∧
      (∀ e ∈ events, e.relation ≠ .cross) ∧ (∀ e ∈ events, e.relation ≠ .touch) := by
    constructor
    · intro h
      refine ⟨?_, ?_, ?_⟩ <;> intro e he <;> rw [h e he] <;> simp
    · rintro ⟨ha, hb, hd⟩ e he
      have := ha e he; have := hb e he; have := hd e he
      cases h : e.relation <;> simp_all
  have hand : (∀ e ∈ events, e.relation ≠ .overlap ∧ e.relation ≠ .cross) ↔
      (∀ e ∈ events, e.relation ≠ .overlap) ∧ (∀ e ∈ events, e.relation ≠ .cross) :=
    ⟨fun h => ⟨fun e he => (h e he).1, fun e he => (h e he).2⟩, fun h e he => ⟨h.1 e he, h.2 e he⟩⟩
  have ex : ∀ r : SegmentsRelation, (∃ e ∈ events, e.relation = r) ↔
      ¬ ∀ e ∈ events, e.relation ≠ r := by intro r; push Not; rfl
  rw [hne, hand, ex, ex, ex, ← hT, ← hG, ← h3]
  unfold OpenLinear.result
  cases ho : w.hasNoOverlap
  · cases w.testIsSubset <;> cases w.goalIsSubset <;> simp
  · rw [← (h4 ho).1, ← (h4 ho).2]
    cases w.testIsSubset <;> cases w.goalIsSubset <;> cases w.hasNoCross <;> cases w.hasNoTouch <;>
      simp

/-- The event seen from the other operand. -/
def swapEvent (e : Emitted K) : Emitted K := { e with fromTest := !e.fromTest }

theorem mem_swap_fromTest (events : List (Emitted K)) (b : Bool) (P : Emitted K → Prop)
    (hP : ∀ e, P (swapEvent e) ↔ P e) :
    (∀ e ∈ events.map swapEvent, e.fromTest = b → P e) ↔
      ∀ e ∈ events, e.fromTest = (!b) → P e := by
  simp only [List.mem_map, forall_exists_index, and_imp, forall_apply_eq_imp_iff₂]
  constructor
  · intro h e he hb
    exact (hP e).mp (h e he (by simp [swapEvent, hb]))
  · intro h e he hb
    refine (hP e).mpr (h e he ?_)
    simp only [swapEvent] at hb
    rw [← hb]; simp

/-- A relation is determined by which of the linear-linear statements hold. -/
theorem linear_ext {r r' : Relation} {T G O C U T' G' O' C' U' : Prop}
    (h : (r = .equal ↔ T ∧ G) ∧ (r = .component ↔ T ∧ ¬ G) ∧ (r = .composite ↔ ¬ T ∧ G) ∧
      (r = .overlap ↔ ¬ T ∧ ¬ G ∧ O) ∧ (r = .cross ↔ ¬ T ∧ ¬ G ∧ ¬ O ∧ C) ∧
      (r = .touch ↔ ¬ T ∧ ¬ G ∧ (¬ O ∧ ¬ C) ∧ U) ∧ (r = .disjoint ↔ ¬ T ∧ ¬ G ∧ ¬ O ∧ ¬ C ∧ ¬ U))
    (h' : (r' = .equal ↔ T' ∧ G') ∧ (r' = .component ↔ T' ∧ ¬ G') ∧ (r' = .composite ↔ ¬ T' ∧ G') ∧
      (r' = .overlap ↔ ¬ T' ∧ ¬ G' ∧ O') ∧ (r' = .cross ↔ ¬ T' ∧ ¬ G' ∧ ¬ O' ∧ C') ∧
      (r' = .touch ↔ ¬ T' ∧ ¬ G' ∧ (¬ O' ∧ ¬ C') ∧ U') ∧
      (r' = .disjoint ↔ ¬ T' ∧ ¬ G' ∧ ¬ O' ∧ ¬ C' ∧ ¬ U'))
    (hO : O ↔ O') (hC : C ↔ C') (hU : U ↔ U') :
    ((T ↔ T') → (G ↔ G') → r = r') ∧ ((T ↔ G') → (G ↔ T') → r' = r.complement) := by
  obtain ⟨a1, a2, a3, a4, a5, a6, a7⟩ := h
  obtain ⟨b1, b2, b3, b4, b5, b6, b7⟩ := h'
  have eO := propext hO; subst eO
  have eC := propext hC; subst eC
  have eU := propext hU; subst eU
  constructor <;> intro hT hG <;> have eT := propext hT <;> subst eT <;> have eG := propext hG <;>
    subst eG <;> by_cases t : T <;> by_cases g : G <;> by_cases o : O <;> by_cases c : C <;>
    by_cases u : U <;>
    simp only [t, g, o, c, u, not_true_eq_false, not_false_eq_true, and_true, and_false, true_and,
      false_and, iff_true, iff_false, and_self] at a1 a2 a3 a4 a5 a6 a7 b1 b2 b3 b4 b5 b6 b7 <;>
    subst_vars <;> rfl

theorem open_linear_form (context : Context K) (events : List (Emitted K)) (s : State K) :
    let T := (∀ e ∈ events, e.fromTest = true → e.relation = .overlap) ∧ ¬ NextFrom context s true
    let G := (∀ e ∈ events, e.fromTest = false → e.relation = .overlap) ∧ ¬ NextFrom context s false
    let O := ∃ e ∈ events, e.relation = SegmentsRelation.overlap
    let C := ∃ e ∈ events, e.relation = SegmentsRelation.cross
    let U := ∃ e ∈ events, e.relation = SegmentsRelation.touch
    ∃ r, processOpenLinearQueue context (events, .ok s) = .ok r ∧
      (r = .equal ↔ T ∧ G) ∧ (r = .component ↔ T ∧ ¬ G) ∧ (r = .composite ↔ ¬ T ∧ G) ∧
      (r = .overlap ↔ ¬ T ∧ ¬ G ∧ O) ∧ (r = .cross ↔ ¬ T ∧ ¬ G ∧ ¬ O ∧ C) ∧
      (r = .touch ↔ ¬ T ∧ ¬ G ∧ (¬ O ∧ ¬ C) ∧ U) ∧
      (r = .disjoint ↔ ¬ T ∧ ¬ G ∧ ¬ O ∧ ¬ C ∧ ¬ U) := by
  intro T G O C U
  obtain ⟨r, hr, h1, h2, h3, h4, h5, h6, h7⟩ := C28_open_linear context events s
  refine ⟨r, hr, h1, h2, h3, h4, ?_, ?_, ?_⟩
  · have hO : (∀ e ∈ events, e.relation ≠ .overlap) ↔ ¬ O := by simp only [O]; push Not; rfl
    rw [h5, hO]
  · rw [h6]; simp only [O, C, U]
    rw [show (∀ e ∈ events, e.relation ≠ .overlap ∧ e.relation ≠ .cross) ↔
      (¬ ∃ e ∈ events, e.relation = .overlap) ∧ ¬ ∃ e ∈ events, e.relation = .cross from
      ⟨fun h => ⟨fun ⟨e, he, h'⟩ => (h e he).1 h', fun ⟨e, he, h'⟩ => (h e he).2 h'⟩,
       fun h e he => ⟨fun h' => h.1 ⟨e, he, h'⟩, fun h' => h.2 ⟨e, he, h'⟩⟩⟩]
  · rw [h7]; simp only [O, C, U]
    have : (∀ e ∈ events, e.relation = .disjoint) ↔ (¬ ∃ e ∈ events, e.relation = .overlap) ∧
        (¬ ∃ e ∈ events, e.relation = .cross) ∧ ¬ ∃ e ∈ events, e.relation = .touch := by
      push Not
      constructor
      · intro h
        refine ⟨?_, ?_, ?_⟩ <;> intro e he <;> rw [h e he] <;> simp
      · rintro ⟨ha, hb, hd⟩ e he
        have := ha e he; have := hb e he; have := hd e he
        cases h : e.relation <;> simp_all
    rw [this]

/-- C28: the order and the repetition of reports are irrelevant. -/
theorem C28_open_linear_order (context : Context K) (events events' : List (Emitted K))
    (h : ∀ e, e ∈ events ↔ e ∈ events') (s : State K) :
    processOpenLinearQueue context (events, .ok s)
      = processOpenLinearQueue context (events', .ok s) := by
  obtain ⟨r, hr, f⟩ := open_linear_form context events s
  obtain ⟨r', hr', f'⟩ := open_linear_form context events' s
  rw [hr, hr', (linear_ext f f' (by simp only [h]) (by simp only [h]) (by simp only [h])).1
    (by simp only [h]) (by simp only [h])]

/-- C28: exchanging the operands in all reports gives the complement. -/
theorem C28_open_linear_swap (context : Context K) (events : List (Emitted K)) (s s' : State K)
    (hs : ∀ b, NextFrom context s' b ↔ NextFrom context s (!b)) :
    processOpenLinearQueue context (events.map swapEvent, .ok s')
      = (processOpenLinearQueue context (events, .ok s)).map Relation.complement := by
  obtain ⟨r, hr, f⟩ := open_linear_form context events s
  obtain ⟨r', hr', f'⟩ := open_linear_form context (events.map swapEvent) s'
  have hex : ∀ q : SegmentsRelation, (∃ e ∈ events, e.relation = q) ↔
      ∃ e ∈ events.map swapEvent, e.relation = q := by
    intro q; simp [swapEvent]
  have hT : ∀ b, (∀ e ∈ events.map swapEvent, e.fromTest = b → e.relation = .overlap) ↔ _ :=
    fun b => mem_swap_fromTest events b (fun e => e.relation = .overlap) (fun _ => Iff.rfl)
  rw [hr, hr', (linear_ext f f' (hex _) (hex _) (hex _)).2 (by simp only [hT, hs]; simp)
    (by simp only [hT, hs]; simp)]
  rfl

/-! ### `contour_in_contour` -/

theorem closedLinear_fold (l : List (Emitted K)) (v : ClosedLinear) :
    l.foldl ClosedLinear.step v =
      { testIsSubsetOfGoal := v.testIsSubsetOfGoal && l.all (fun e => !(e.fromTest && e.outside))
        goalIsSubsetOfTest := v.goalIsSubsetOfTest && l.all (fun e => !(!e.fromTest && e.outside))
        testBoundaryNotInGoalInterior :=
          v.testBoundaryNotInGoalInterior && l.all (fun e => !(e.fromTest && e.inside))
        goalBoundaryNotInTestInterior :=
          v.goalBoundaryNotInTestInterior && l.all (fun e => !(!e.fromTest && e.inside))
        hasNoCross := v.hasNoCross && l.all (fun e => !decide (e.relation = .cross))
        hasNoTouch := v.hasNoTouch && l.all (fun e => !decide (e.relation = .touch))
        hasNoOverlap := v.hasNoOverlap && l.all (fun e => !decide (e.relation = .overlap)) } := by
  induction l generalizing v with
  | nil => simp
  | cons e l ih =>
    rw [List.foldl_cons, ih]
    simp only [ClosedLinear.step, List.all_cons, Bool.and_assoc]

set_option synthInstance.maxSize 4096 in
set_option synthInstance.maxHeartbeats 400000 in
/-- C28, `contour_in_contour`: the verdict in terms of the reported pieces. -/
theorem C28_closed_linear (context : Context K) (events : List (Emitted K)) (s : State K) :
    let testOut := (∃ e ∈ events, e.fromTest = true ∧ e.outside = true) ∨ NextFrom context s true
    let goalOut := (∃ e ∈ events, e.fromTest = false ∧ e.outside = true) ∨ NextFrom context s false
    let testIn := ∃ e ∈ events, e.fromTest = true ∧ e.inside = true
    let goalIn := ∃ e ∈ events, e.fromTest = false ∧ e.inside = true
    let crosses := ∃ e ∈ events, e.relation = SegmentsRelation.cross
    let touches := ∃ e ∈ events, e.relation = SegmentsRelation.touch
    let overlaps := ∃ e ∈ events, e.relation = SegmentsRelation.overlap
    let nested := ¬ goalOut ∧ testOut ∧ goalIn ∨ goalOut ∧ ¬ testOut ∧ testIn
    ∃ r, processClosedLinearQueue context (events, .ok s) = .ok r ∧
    (r = .equal ↔ ¬ goalOut ∧ ¬ testOut) ∧
    (r = .composite ↔ ¬ goalOut ∧ testOut ∧ ¬ goalIn) ∧
    (r = .component ↔ goalOut ∧ ¬ testOut ∧ ¬ testIn) ∧
    (r = .overlap ↔ overlaps ∧ (nested ∨ goalOut ∧ testOut)) ∧
    (r = .cross ↔ goalOut ∧ testOut ∧ ¬ overlaps ∧ (crosses ∨ ¬ (testIn ↔ goalIn))) ∧
    (r = .touch ↔ touches ∧ ¬ overlaps ∧
      (nested ∨ goalOut ∧ testOut ∧ ¬ crosses ∧ (testIn ↔ goalIn))) ∧
    (r = .disjoint ↔ ¬ touches ∧ ¬ overlaps ∧
      (nested ∨ goalOut ∧ testOut ∧ ¬ crosses ∧ (testIn ↔ goalIn))) := by
  intro testOut goalOut testIn goalIn crosses touches overlaps nested
  have h1 : (events.all (fun e => !(e.fromTest && e.inside))) = false ↔ testIn := by
    simp [testIn]
  have h2 : (events.all (fun e => !(!e.fromTest && e.inside))) = false ↔ goalIn := by
    simp [goalIn]
  have h3 : (events.all (fun e => !decide (e.relation = .cross))) = false ↔ crosses := by
    simp [crosses]
  have h4 : (events.all (fun e => !decide (e.relation = .touch))) = false ↔ touches := by
    simp [touches]
  have h5 : (events.all (fun e => !decide (e.relation = .overlap))) = false ↔ overlaps := by
    simp [overlaps]
  have h6 : (events.all (fun e => !(e.fromTest && e.outside)) = false ∨
      peekFromTest context s = some true) ↔ testOut := by simp [testOut, NextFrom]
  have h7 : (events.all (fun e => !(!e.fromTest && e.outside)) = false ∨
      peekFromTest context s = some false) ↔ goalOut := by simp [goalOut, NextFrom]
  refine ⟨_, rfl, ?_⟩
  simp only [nested]
  rw [closedLinear_fold, ← h1, ← h2, ← h3, ← h4, ← h5, ← h6, ← h7]
  simp only [Bool.true_and]
  generalize events.all _ = a1
  generalize events.all _ = a2
  generalize events.all _ = a3
  generalize events.all _ = a4
  generalize events.all _ = a5
  generalize events.all _ = a6
  generalize events.all _ = a7
  cases peekFromTest context s with
  | none => refine ⟨?_, ?_, ?_, ?_, ?_, ?_, ?_⟩ <;> revert a1 a2 a3 a4 a5 a6 a7 <;> decide
  | some b => refine ⟨?_, ?_, ?_, ?_, ?_, ?_, ?_⟩ <;> revert b a1 a2 a3 a4 a5 a6 a7 <;> decide

theorem all_congr_mem {events events' : List (Emitted K)} (h : ∀ e, e ∈ events ↔ e ∈ events')
    (p : Emitted K → Bool) : events.all p = events'.all p := by
  rw [Bool.eq_iff_iff, List.all_eq_true, List.all_eq_true]
  simp only [h]

theorem any_congr_mem {events events' : List (Emitted K)} (h : ∀ e, e ∈ events ↔ e ∈ events')
    (p : Emitted K → Bool) : events.any p = events'.any p := by
  rw [Bool.eq_iff_iff, List.any_eq_true, List.any_eq_true]
  simp only [h]

/-- C28, `contour_in_contour`: order and repetition of reports are irrelevant. -/
theorem C28_closed_linear_order (context : Context K) (events events' : List (Emitted K))
    (h : ∀ e, e ∈ events ↔ e ∈ events') (s : State K) :
    processClosedLinearQueue context (events, .ok s)
      = processClosedLinearQueue context (events', .ok s) := by
  unfold processClosedLinearQueue
  simp only [closedLinear_fold, all_congr_mem h]

/-- C28, `contour_in_contour`: exchanging the operands in all reports gives the complement. -/
theorem C28_closed_linear_swap (context : Context K) (events : List (Emitted K)) (s s' : State K)
    (hs : ∀ b, NextFrom context s' b ↔ NextFrom context s (!b)) :
    processClosedLinearQueue context (events.map swapEvent, .ok s')
      = (processClosedLinearQueue context (events, .ok s)).map Relation.complement := by
  have hp : peekFromTest context s' = (peekFromTest context s).map (!·) := by
    unfold NextFrom at hs
    cases h' : peekFromTest context s' with
    | none =>
      cases h : peekFromTest context s with
      | none => rfl
      | some b => have := (hs (!b)).mpr (by rw [h]; simp); rw [h'] at this; simp at this
    | some b => rw [(hs b).mp h']; simp
  unfold processClosedLinearQueue
  simp only [bind, Except.bind, pure, Except.pure, Except.map]
  rw [closedLinear_fold, closedLinear_fold, hp]
  have e1 : (events.map swapEvent).all (fun e => !(e.fromTest && e.outside))
      = events.all (fun e => !(!e.fromTest && e.outside)) := by rw [List.all_map]; rfl
  have e2 : (events.map swapEvent).all (fun e => !(!e.fromTest && e.outside))
      = events.all (fun e => !(e.fromTest && e.outside)) := by
    rw [List.all_map]; congr 1; funext e; simp [swapEvent, Emitted.outside]; rfl
  have e3 : (events.map swapEvent).all (fun e => !(e.fromTest && e.inside))
      = events.all (fun e => !(!e.fromTest && e.inside)) := by rw [List.all_map]; rfl
  have e4 : (events.map swapEvent).all (fun e => !(!e.fromTest && e.inside))
      = events.all (fun e => !(e.fromTest && e.inside)) := by
    rw [List.all_map]; congr 1; funext e; simp [swapEvent, Emitted.inside]; rfl
  have e5 : ∀ q : SegmentsRelation, (events.map swapEvent).all (fun e => !decide (e.relation = q))
      = events.all (fun e => !decide (e.relation = q)) := by intro q; rw [List.all_map]; rfl
  rw [e1, e2, e3, e4, e5, e5, e5]
  clear e1 e2 e3 e4 e5 hp hs
  generalize events.all _ = a1
  generalize events.all _ = a2
  generalize events.all _ = a3
  generalize events.all _ = a4
  generalize events.all _ = a5
  generalize events.all _ = a6
  generalize events.all _ = a7
  congr 1
  cases peekFromTest context s with
  | none => revert a1 a2 a3 a4 a5 a6 a7; decide
  | some b => revert b a1 a2 a3 a4 a5 a6 a7; decide

/-! ### Linear geometries in compound geometries -/

/-- C28, linear in compound: the verdict in terms of the reported pieces. -/
theorem C28_linear_compound (context : Context K) (events : List (Emitted K)) (s : State K) :
    let insideSome := ∃ e ∈ events, e.fromTest = true ∧ e.inside = true
    let outsideSome := (∃ e ∈ events, e.fromTest = true ∧ e.outside = true) ∨ NextFrom context s true
    let goalLeft := (∃ e ∈ events, e.fromTest = false ∧ e.relation ≠ .overlap) ∨
      NextFrom context s false
    let meets := ∃ e ∈ events, e.relation ≠ SegmentsRelation.disjoint
    let crosses := ∃ e ∈ events, e.relation = SegmentsRelation.cross
    ∃ r, processLinearCompoundQueue context (events, .ok s) = .ok r ∧
    (r = .cross ↔ crosses ∨ insideSome ∧ outsideSome ∧ goalLeft) ∧
    (r = .component ↔ ¬ crosses ∧ ¬ outsideSome ∧ ¬ insideSome) ∧
    (r = .within ↔ ¬ outsideSome ∧ insideSome ∧ goalLeft ∧ ¬ meets) ∧
    (r = .disjoint ↔ outsideSome ∧ ¬ insideSome ∧ goalLeft ∧ ¬ meets) ∧
    (r = .enclosed ↔ ¬ crosses ∧ ¬ outsideSome ∧ insideSome ∧ (meets ∨ ¬ goalLeft)) ∧
    (r = .touch ↔ ¬ crosses ∧ outsideSome ∧ (¬ insideSome ∧ meets ∨ ¬ goalLeft)) := by
  intro insideSome outsideSome goalLeft meets crosses
  have fold : ∀ (l : List (Emitted K)) (v : LinearCompound), l.foldl LinearCompound.step v =
      { testNotInGoalInterior :=
          v.testNotInGoalInterior && !l.any (fun e => e.fromTest && e.inside)
        hasNoTouch := v.hasNoTouch && !l.any (fun e => !decide (e.relation = .disjoint))
        testIsSubsetOfGoal := v.testIsSubsetOfGoal && !l.any (fun e => e.fromTest && e.outside)
        goalBorderSubsetOfTest := v.goalBorderSubsetOfTest &&
          !l.any (fun e => !e.fromTest && !decide (e.relation = .overlap)) } := by
    intro l
    induction l with
    | nil => intro v; simp
    | cons e l ih =>
      intro v
      rw [List.foldl_cons, ih]
      simp only [LinearCompound.step, List.any_cons]
      cases e.fromTest <;> simp [Bool.and_assoc]
  have hcr : (events.any fun event => decide (event.relation = .cross)) = true ↔ crosses := by
    simp [crosses]
  have hcm : crosses → meets := by
    rintro ⟨e, he, h⟩; exact ⟨e, he, by rw [h]; simp⟩
  have hin : (events.any (fun e => e.fromTest && e.inside)) = true ↔ insideSome := by
    simp [insideSome]
  have hme : (events.any (fun e => !decide (e.relation = .disjoint))) = true ↔ meets := by
    simp [meets]
  have hout : ((events.any (fun e => e.fromTest && e.outside)) = true ∨
      peekFromTest context s = some true) ↔ outsideSome := by simp [outsideSome, NextFrom]
  have hgl : ((events.any (fun e => !e.fromTest && !decide (e.relation = .overlap))) = true ∨
      peekFromTest context s = some false) ↔ goalLeft := by simp [goalLeft, NextFrom]
  unfold processLinearCompoundQueue
  by_cases hc : crosses
  · rw [if_pos (hcr.mpr hc)]
    exact ⟨_, rfl, by simp [hc, hcm hc]⟩
  · rw [if_neg (fun h => hc (hcr.mp h))]
    refine ⟨_, rfl, ?_⟩
    rw [fold, ← hin, ← hme, ← hout, ← hgl]
    simp only [hc, false_or, not_false_eq_true, true_and, Bool.true_and]
    generalize events.any _ = a1
    generalize events.any _ = a2
    generalize events.any _ = a3
    generalize events.any _ = a4
    cases peekFromTest context s with
    | none =>
      cases a1 <;> cases a2 <;> cases a3 <;> cases a4 <;>
        simp [LinearCompound.rest, LinearCompound.result]
    | some b =>
      cases b <;> cases a1 <;> cases a2 <;> cases a3 <;> cases a4 <;>
        simp [LinearCompound.rest, LinearCompound.result]

/-- C28, linear in compound: order and repetition of reports are irrelevant. -/
theorem C28_linear_compound_order (context : Context K) (events events' : List (Emitted K))
    (h : ∀ e, e ∈ events ↔ e ∈ events') (s : State K) :
    processLinearCompoundQueue context (events, .ok s)
      = processLinearCompoundQueue context (events', .ok s) := by
  obtain ⟨r, hr, h1, h2, h3, h4, h5, h6⟩ := C28_linear_compound context events s
  obtain ⟨r', hr', h1', h2', h3', h4', h5', h6'⟩ := C28_linear_compound context events' s
  have hm : r ∈ linearCompound := by
    have hx : AnswersIn linearCompound (processLinearCompoundQueue context (events, .ok s)) :=
      AnswersIn.ite (AnswersIn.ok (by simp [linearCompound]))
        (AnswersIn.bind fun _ _ => AnswersIn.pure (linearCompound_result _))
    exact hx r hr
  simp only [← h] at h1' h2' h3' h4' h5' h6'
  rw [hr, hr']
  congr 1
  simp only [linearCompound, List.mem_cons, List.not_mem_nil, or_false] at hm
  rcases hm with hm | hm | hm | hm | hm | hm
  · rw [hm]; exact (h4'.mpr (h4.mp hm)).symm
  · rw [hm]; exact (h6'.mpr (h6.mp hm)).symm
  · rw [hm]; exact (h1'.mpr (h1.mp hm)).symm
  · rw [hm]; exact (h2'.mpr (h2.mp hm)).symm
  · rw [hm]; exact (h5'.mpr (h5.mp hm)).symm
  · rw [hm]; exact (h3'.mpr (h3.mp hm)).symm

/-! ### Compound geometries in compound geometries -/

/-- C28, compound in compound: the verdict in terms of the reported pieces.  `T`: no piece of the
test is outside of the goal or a common edge with interiors on different sides, no piece of the goal
is inside of the test, and the test is not next in the queue. -/
theorem C28_compound (context : Context K) (events : List (Emitted K)) (s : State K)
    (hx : ∀ e ∈ events, e.relation ≠ .cross) :
    let part (b : Bool) := (∀ e ∈ events, e.fromTest = b →
        e.outside = false ∧ e.isCommonPolylineComponent = false) ∧
      (∀ e ∈ events, e.fromTest = (!b) → e.inside = false) ∧ ¬ NextFrom context s b
    let meets := ∃ e ∈ events, e.relation ≠ SegmentsRelation.disjoint
    let common := ∃ e ∈ events, e.isCommonRegionBoundary = true ∨ e.inside = true
    let insideSome (b : Bool) := ∃ e ∈ events, e.fromTest = b ∧ e.inside = true
    ∃ r, processCompoundQueue context (events, .ok s) = .ok r ∧
    (r = .within ↔ ¬ meets ∧ part true) ∧
    (r = .cover ↔ ¬ meets ∧ ¬ part true ∧ part false) ∧
    (r = .disjoint ↔ ¬ meets ∧ ¬ part true ∧ ¬ part false ∧ ¬ common) ∧
    (r = .equal ↔ meets ∧ part true ∧ part false) ∧
    (r = .component ↔ meets ∧ part true ∧ ¬ part false ∧ ¬ insideSome true) ∧
    (r = .enclosed ↔ meets ∧ part true ∧ ¬ part false ∧ insideSome true) ∧
    (r = .composite ↔ meets ∧ ¬ part true ∧ part false ∧ ¬ insideSome false) ∧
    (r = .encloses ↔ meets ∧ ¬ part true ∧ part false ∧ insideSome false) ∧
    (r = .touch ↔ meets ∧ ¬ part true ∧ ¬ part false ∧ ¬ common) ∧
    (r = .overlap ↔ ¬ part true ∧ ¬ part false ∧ common) := by
  intro part meets common insideSome
  have fold : ∀ (l : List (Emitted K)) (v : Compound), l.foldl Compound.step v =
      { testBoundaryNotInGoalInterior :=
          v.testBoundaryNotInGoalInterior && !l.any (fun e => e.fromTest && e.inside)
        goalBoundaryNotInTestInterior :=
          v.goalBoundaryNotInTestInterior && !l.any (fun e => !e.fromTest && e.inside)
        boundariesDoNotIntersect :=
          v.boundariesDoNotIntersect && !l.any (fun e => !decide (e.relation = .disjoint))
        noneOverlappingComponents := v.noneOverlappingComponents &&
          !l.any (fun e => e.isCommonRegionBoundary || e.inside)
        testIsSubsetOfGoal := v.testIsSubsetOfGoal &&
          (!l.any (fun e => e.fromTest && (e.outside || e.isCommonPolylineComponent)) &&
            !l.any (fun e => !e.fromTest && e.inside))
        goalIsSubsetOfTest := v.goalIsSubsetOfTest &&
          (!l.any (fun e => !e.fromTest && (e.outside || e.isCommonPolylineComponent)) &&
            !l.any (fun e => e.fromTest && e.inside)) } := by
    intro l
    induction l with
    | nil => intro v; simp
    | cons e l ih =>
      intro v
      rw [List.foldl_cons, ih]
      have key : ∀ (f : Bool) (k : OverlapKind) (o : Bool) (d : Bool) (v : Compound)
          (a1 a2 a3 a4 a5 a6 : Bool) (e : Emitted K), e.fromTest = f → e.overlapKind = k →
          e.otherInteriorToLeft = o → decide (e.relation = .disjoint) = d →
          ({ testBoundaryNotInGoalInterior := (v.step e).testBoundaryNotInGoalInterior && !a1
             goalBoundaryNotInTestInterior := (v.step e).goalBoundaryNotInTestInterior && !a2
             boundariesDoNotIntersect := (v.step e).boundariesDoNotIntersect && !a3
             noneOverlappingComponents := (v.step e).noneOverlappingComponents && !a4
             testIsSubsetOfGoal := (v.step e).testIsSubsetOfGoal && (!a5 && !a2)
             goalIsSubsetOfTest := (v.step e).goalIsSubsetOfTest && (!a6 && !a1) } : Compound) =
          { testBoundaryNotInGoalInterior :=
              v.testBoundaryNotInGoalInterior && !(e.fromTest && e.inside || a1)
            goalBoundaryNotInTestInterior :=
              v.goalBoundaryNotInTestInterior && !(!e.fromTest && e.inside || a2)
            boundariesDoNotIntersect :=
              v.boundariesDoNotIntersect && !(!decide (e.relation = .disjoint) || a3)
            noneOverlappingComponents := v.noneOverlappingComponents &&
              !(e.isCommonRegionBoundary || e.inside || a4)
            testIsSubsetOfGoal := v.testIsSubsetOfGoal &&
              (!(e.fromTest && (e.outside || e.isCommonPolylineComponent) || a5) &&
                !(!e.fromTest && e.inside || a2))
            goalIsSubsetOfTest := v.goalIsSubsetOfTest &&
              (!(!e.fromTest && (e.outside || e.isCommonPolylineComponent) || a6) &&
                !(e.fromTest && e.inside || a1)) } := by
        intro f k o d v a1 a2 a3 a4 a5 a6 e hf hk ho hd
        simp only [Compound.step, Emitted.inside, Emitted.outside, Emitted.isCommonPolylineComponent,
          Emitted.isCommonRegionBoundary, hf, hk, ho, hd]
        cases f <;> cases k <;> cases o <;> cases d <;> simp
      simp only [List.any_cons]
      exact key _ _ _ _ v _ _ _ _ _ _ e rfl rfl rfl rfl
  have hin1 : (events.any (fun e => e.fromTest && e.inside)) = true ↔ insideSome true := by
    simp [insideSome]
  have hin0 : (events.any (fun e => !e.fromTest && e.inside)) = true ↔ insideSome false := by
    simp [insideSome]
  have hme : (events.any (fun e => !decide (e.relation = .disjoint))) = true ↔ meets := by
    simp [meets]
  have hco : (events.any (fun e => e.isCommonRegionBoundary || e.inside)) = true ↔ common := by
    simp [common]
  have hpt : ((!events.any (fun e => e.fromTest && (e.outside || e.isCommonPolylineComponent)) &&
      !events.any (fun e => !e.fromTest && e.inside)) = true ∧ peekFromTest context s ≠ some true)
      ↔ part true := by
    simp only [part, NextFrom, Bool.and_eq_true, Bool.not_eq_true', List.any_eq_false]
    simp only [Bool.and_eq_true, Bool.or_eq_true, not_and, not_or, Bool.not_eq_true,
      Bool.not_true, Bool.not_eq_true', and_assoc]
  have hpf : ((!events.any (fun e => !e.fromTest && (e.outside || e.isCommonPolylineComponent)) &&
      !events.any (fun e => e.fromTest && e.inside)) = true ∧ peekFromTest context s ≠ some false)
      ↔ part false := by
    simp only [part, NextFrom, Bool.and_eq_true, Bool.not_eq_true', List.any_eq_false]
    simp only [Bool.and_eq_true, Bool.or_eq_true, not_and, not_or, Bool.not_eq_true,
      Bool.not_false, Bool.not_eq_true', and_assoc]
  have hcm1 : insideSome true → common := fun ⟨e, he, h⟩ => ⟨e, he, .inr h.2⟩
  have hcm0 : insideSome false → common := fun ⟨e, he, h⟩ => ⟨e, he, .inr h.2⟩
  unfold processCompoundQueue
  rw [if_neg (by simpa using hx)]
  refine ⟨_, rfl, ?_⟩
  rw [← hin1, ← hin0, ← hme, ← hco, ← hpt, ← hpf, fold]
  simp only [Bool.true_and]
  rw [← hin1, ← hco] at hcm1
  rw [← hin0, ← hco] at hcm0
  revert hcm1 hcm0
  clear hin1 hin0 hme hco hpt hpf fold hx
  generalize events.any (fun e => e.fromTest && e.inside) = a1
  generalize events.any (fun e => !e.fromTest && e.inside) = a2
  generalize events.any _ = a3
  generalize events.any _ = a4
  generalize events.any _ = a5
  generalize events.any _ = a6
  cases peekFromTest context s with
  | none =>
    cases a1 <;> cases a2 <;> cases a3 <;> cases a4 <;> cases a5 <;> cases a6 <;>
      simp [Compound.rest, Compound.result]
  | some b =>
    cases b <;> cases a1 <;> cases a2 <;> cases a3 <;> cases a4 <;> cases a5 <;> cases a6 <;>
      simp [Compound.rest, Compound.result]

/-- C28: a reported crossing of boundaries settles the answer. -/
theorem C28_compound_cross (context : Context K) (events : List (Emitted K)) (s : Py (State K))
    (hx : ∃ e ∈ events, e.relation = .cross) :
    processCompoundQueue context (events, s) = .ok .overlap ∧
      processLinearCompoundQueue context (events, s) = .ok .cross := by
  have h : (events.any fun event => decide (event.relation = .cross)) = true := by simpa using hx
  constructor
  · unfold processCompoundQueue; rw [if_pos h]
  · unfold processLinearCompoundQueue; rw [if_pos h]

/-- A compound relation is determined by which of the statements hold. -/
theorem compound_ext {r r' : Relation} {M C T G I J T' G' I' J' : Prop}
    (h : (r = .within ↔ ¬ M ∧ T) ∧ (r = .cover ↔ ¬ M ∧ ¬ T ∧ G) ∧
      (r = .disjoint ↔ ¬ M ∧ ¬ T ∧ ¬ G ∧ ¬ C) ∧ (r = .equal ↔ M ∧ T ∧ G) ∧
      (r = .component ↔ M ∧ T ∧ ¬ G ∧ ¬ I) ∧ (r = .enclosed ↔ M ∧ T ∧ ¬ G ∧ I) ∧
      (r = .composite ↔ M ∧ ¬ T ∧ G ∧ ¬ J) ∧ (r = .encloses ↔ M ∧ ¬ T ∧ G ∧ J) ∧
      (r = .touch ↔ M ∧ ¬ T ∧ ¬ G ∧ ¬ C) ∧ (r = .overlap ↔ ¬ T ∧ ¬ G ∧ C))
    (h' : (r' = .within ↔ ¬ M ∧ T') ∧ (r' = .cover ↔ ¬ M ∧ ¬ T' ∧ G') ∧
      (r' = .disjoint ↔ ¬ M ∧ ¬ T' ∧ ¬ G' ∧ ¬ C) ∧ (r' = .equal ↔ M ∧ T' ∧ G') ∧
      (r' = .component ↔ M ∧ T' ∧ ¬ G' ∧ ¬ I') ∧ (r' = .enclosed ↔ M ∧ T' ∧ ¬ G' ∧ I') ∧
      (r' = .composite ↔ M ∧ ¬ T' ∧ G' ∧ ¬ J') ∧ (r' = .encloses ↔ M ∧ ¬ T' ∧ G' ∧ J') ∧
      (r' = .touch ↔ M ∧ ¬ T' ∧ ¬ G' ∧ ¬ C) ∧ (r' = .overlap ↔ ¬ T' ∧ ¬ G' ∧ C)) :
    ((T ↔ T') → (G ↔ G') → (I ↔ I') → (J ↔ J') → r = r') ∧
    ((T ∧ G → M) → (T ↔ G') → (G ↔ T') → (I ↔ J') → (J ↔ I') → r' = r.complement) := by
  obtain ⟨a1, a2, a3, a4, a5, a6, a7, a8, a9, a10⟩ := h
  obtain ⟨b1, b2, b3, b4, b5, b6, b7, b8, b9, b10⟩ := h'
  constructor
  · intro hT hG hI hJ
    have eT := propext hT; subst eT
    have eG := propext hG; subst eG
    have eI := propext hI; subst eI
    have eJ := propext hJ; subst eJ
    by_cases t : T <;> by_cases g : G <;> by_cases i : I <;> by_cases j : J <;> by_cases c : C <;>
    by_cases m : M <;>
    simp only [t, g, i, j, c, m, not_true_eq_false, not_false_eq_true, and_true, and_false, true_and,
      false_and, iff_true, iff_false, and_self]
      at a1 a2 a3 a4 a5 a6 a7 a8 a9 a10 b1 b2 b3 b4 b5 b6 b7 b8 b9 b10 <;>
    subst_vars <;> rfl
  · intro hM hT hG hI hJ
    have eT := propext hT; subst eT
    have eG := propext hG; subst eG
    have eI := propext hI; subst eI
    have eJ := propext hJ; subst eJ
    by_cases t : T <;> by_cases g : G <;> by_cases i : I <;> by_cases j : J <;> by_cases c : C <;>
    by_cases m : M <;>
    simp only [t, g, i, j, c, m, not_true_eq_false, not_false_eq_true, and_true, and_false, true_and,
      false_and, iff_true, iff_false, and_self, imp_false]
      at a1 a2 a3 a4 a5 a6 a7 a8 a9 a10 b1 b2 b3 b4 b5 b6 b7 b8 b9 b10 hM <;>
    subst_vars <;> rfl

/-- C28, compound in compound: order and repetition of reports are irrelevant. -/
theorem C28_compound_order (context : Context K) (events events' : List (Emitted K))
    (h : ∀ e, e ∈ events ↔ e ∈ events') (s : State K) :
    processCompoundQueue context (events, .ok s)
      = processCompoundQueue context (events', .ok s) := by
  by_cases hx : ∃ e ∈ events, e.relation = .cross
  · rw [(C28_compound_cross context events (.ok s) hx).1,
      (C28_compound_cross context events' (.ok s) (by simpa only [h] using hx)).1]
  · push Not at hx
    obtain ⟨r, hr, f⟩ := C28_compound context events s hx
    obtain ⟨r', hr', f'⟩ := C28_compound context events' s (by simpa only [h] using hx)
    simp only [← h] at f'
    rw [hr, hr', (compound_ext f f').1 Iff.rfl Iff.rfl Iff.rfl Iff.rfl]

/-- C28, compound in compound: exchanging the operands in all reports gives the complement, provided
something is reported and common edges are reported as overlaps. -/
theorem C28_compound_swap (context : Context K) (events : List (Emitted K)) (s s' : State K)
    (hne : events ≠ [])
    (hk : ∀ e ∈ events, e.overlapKind ≠ .none → e.relation ≠ .disjoint)
    (hs : ∀ b, NextFrom context s' b ↔ NextFrom context s (!b)) :
    processCompoundQueue context (events.map swapEvent, .ok s')
      = (processCompoundQueue context (events, .ok s)).map Relation.complement := by
  by_cases hx : ∃ e ∈ events, e.relation = .cross
  · rw [(C28_compound_cross context events (.ok s) hx).1,
      (C28_compound_cross context (events.map swapEvent) (.ok s') (by
        obtain ⟨e, he, h⟩ := hx
        exact ⟨swapEvent e, List.mem_map_of_mem he, h⟩)).1]
    rfl
  · push Not at hx
    obtain ⟨r, hr, f⟩ := C28_compound context events s hx
    obtain ⟨r', hr', f'⟩ := C28_compound context (events.map swapEvent) s' (by
      simp only [List.mem_map, forall_exists_index, and_imp, forall_apply_eq_imp_iff₂]
      exact hx)
    have hA : ∀ b, (∀ e ∈ events.map swapEvent, e.fromTest = b →
        e.outside = false ∧ e.isCommonPolylineComponent = false) ↔ _ :=
      fun b => mem_swap_fromTest events b
        (fun e => e.outside = false ∧ e.isCommonPolylineComponent = false) (fun _ => Iff.rfl)
    have hB : ∀ b, (∀ e ∈ events.map swapEvent, e.fromTest = b → e.inside = false) ↔ _ :=
      fun b => mem_swap_fromTest events b (fun e => e.inside = false) (fun _ => Iff.rfl)
    have hM : (∃ e ∈ events.map swapEvent, e.relation ≠ .disjoint) ↔
        ∃ e ∈ events, e.relation ≠ .disjoint := by simp [swapEvent]
    have hC : (∃ e ∈ events.map swapEvent, e.isCommonRegionBoundary = true ∨ e.inside = true) ↔
        ∃ e ∈ events, e.isCommonRegionBoundary = true ∨ e.inside = true := by
      simp [swapEvent, Emitted.isCommonRegionBoundary, Emitted.inside]
    have hI : ∀ b, (∃ e ∈ events.map swapEvent, e.fromTest = b ∧ e.inside = true) ↔
        ∃ e ∈ events, e.fromTest = (!b) ∧ e.inside = true := by
      intro b
      simp only [List.mem_map, exists_exists_and_eq_and, swapEvent, Emitted.inside]
      cases b <;> simp
    simp only [hM, hC] at f'
    have key := (compound_ext f f').2 ?_ ?_ ?_ ?_ ?_
    · rw [hr, hr', key]; rfl
    · rintro ⟨⟨h1, h2, -⟩, ⟨h3, h4, -⟩⟩
      obtain ⟨e, he⟩ := List.exists_mem_of_ne_nil _ hne
      refine ⟨e, he, hk e he fun hkind => ?_⟩
      have ho : e.outside = false := by
        cases hb : e.fromTest
        · exact (h3 e he hb).1
        · exact (h1 e he hb).1
      have hi : e.inside = false := by
        cases hb : e.fromTest
        · exact h2 e he hb
        · exact h4 e he hb
      simp only [Emitted.outside, Emitted.inside, hkind, decide_true, Bool.and_true,
        Bool.not_eq_false'] at ho hi
      rw [ho] at hi; exact absurd hi (by simp)
    · simp only [hA, hB, hs]; simp
    · simp only [hA, hB, hs]; simp
    · simp only [hI]; simp
    · simp only [hI]; simp

/-- Non-trivial reports: a piece of the test inside and a common edge; nothing else queued. -/
example :
    let e : Emitted ℚ := ⟨0, ⟨0, 0⟩, ⟨1, 0⟩, true, .overlap, .sameOrientation, true, false⟩
    let i : Emitted ℚ := ⟨2, ⟨0, 0⟩, ⟨1, 1⟩, true, .touch, .none, false, true⟩
    let o : Emitted ℚ := ⟨4, ⟨0, 0⟩, ⟨1, 2⟩, false, .touch, .none, false, false⟩
    let events := [e, i, o]
    events ≠ [] ∧ (∀ x ∈ events, x.overlapKind ≠ .none → x.relation ≠ .disjoint) ∧
    processCompoundQueue (reference.context : Context ℚ) (events, .ok State.empty)
      = .ok .enclosed ∧
    processCompoundQueue (reference.context : Context ℚ) (events.map swapEvent, .ok State.empty)
      = .ok .encloses := by decide +kernel

end Orient.Props
