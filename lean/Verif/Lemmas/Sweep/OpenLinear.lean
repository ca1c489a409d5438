import Verif.Lemmas.Sweep.Collect
import Verif.Props.Verdicts

/-! What the answers of `process_open_linear_queue` say about the operands. -/

set_option linter.unusedSectionVars false

namespace Orient.eventsQueue

variable {K : Type} [Field K] [LinearOrder K] [IsStrictOrderedRing K]

open State processing Props

theorem queued_valid {s : State K} (hw : s.WF) {e : Ev} (h : e ∈ s.queue) : s.Valid e := by
  cases e with
  | left i => exact hw.queueLeft i h
  | right r => exact hw.queueRight r h

/-- The start of an event is a point of its operand. -/
theorem evStart_mem_operand {s : State K} (hw : s.WF) {e : Ev} (h : s.Valid e) :
    s.evStart e ∈ s.operand (s.evFromTest e) := by
  cases e with
  | left i => exact ⟨i, h, rfl, Segment.start_mem _⟩
  | right r =>
    obtain ⟨h1, h2⟩ := hw.rightLeft r h
    refine ⟨(s.rights r).left, h1, rfl, ?_⟩
    have : s.evStart (.right r) = s.leftEnd (s.rights r).left := by
      simp only [evStart, leftEnd, h2]
    rw [this]
    exact Segment.finish_mem _

/-- If an event of one operand is the next one then nothing of the other operand is queued. -/
theorem Swept.next {context : Context K} {s d : State K} {stopX : K} {ems : List (Emitted K)}
    (h : Swept s stopX ems d) (hw : s.WF) {mg mt : K}
    (hg : ∀ x ∈ s.operand false, x.x ≤ mg) (ht : ∀ x ∈ s.operand true, x.x ≤ mt)
    (hstop : stopX = min mg mt) {e : Ev} (he : e ∈ d.queue) :
    NextFrom context d (d.evFromTest e) := by
  have hop : ∀ b, d.operand b = s.operand b := by
    intro b
    obtain ⟨o, ho⟩ := h.runs.refines hw
    exact ho.operand b
  cases hp : peek? context d with
  | none => rw [peek?_none hp] at he; cases he
  | some e' =>
    have key : ∀ e ∈ d.queue, d.evFromTest e = decide (mg < mt) := by
      intro e he
      have h1 := evStart_mem_operand h.wf (queued_valid h.wf he)
      have h2 := h.beyond e he
      rw [hop] at h1
      cases hb : d.evFromTest e with
      | true =>
        rw [hb] at h1
        have := ht _ h1
        rw [hstop, min_lt_iff] at h2
        have : mg < mt := by
          rcases h2 with h2 | h2
          · exact lt_of_lt_of_le h2 this
          · exact absurd this (not_le.mpr h2)
        simp [this]
      | false =>
        rw [hb] at h1
        have := hg _ h1
        rw [hstop, min_lt_iff] at h2
        have : mt < mg := by
          rcases h2 with h2 | h2
          · exact absurd this (not_le.mpr h2)
          · exact lt_of_lt_of_le h2 this
        simp [this.le]
    unfold NextFrom peekFromTest
    rw [hp, key e he, Option.map_some, key e' (peek?_mem hp)]

/-- If all emitted pieces of an operand lie on the other one and it is not the next one in the queue
then it is a part of the other one. -/
theorem Swept.subset {context : Context K} {s d : State K} {stopX : K} {ems : List (Emitted K)}
    (h : Swept s stopX ems d) (hw : s.WF) {mg mt : K}
    (hg : ∀ x ∈ s.operand false, x.x ≤ mg) (ht : ∀ x ∈ s.operand true, x.x ≤ mt)
    (hstop : stopX = min mg mt) {b : Bool}
    (h1 : ∀ e ∈ ems, e.fromTest = b → e.relation = .overlap) (h2 : ¬ NextFrom context d b) :
    s.operand b ⊆ s.operand (!b) := by
  intro x hx
  rcases h.complete b x hx with ⟨em, hem, hb, hx⟩ | ⟨i, hi, hb, -⟩
  · have := (h.sound em hem).2.2.2 (h1 em hem hb)
    rw [hb] at this
    exact this hx
  · refine absurd ?_ h2
    have := h.next (context := context) hw hg ht hstop hi
    rwa [show d.evFromTest (.left i) = b from hb] at this

/-- What the answer of `process_open_linear_queue` says. -/
theorem runOpenLinear_sound {context : Context K} (hc : context.Exact) {s : State K}
    {G T : List (Segment K)} (h : Registered s G T) {mg mt : K}
    (hg : ∀ x ∈ segsPts G, x.x ≤ mg) (ht : ∀ x ∈ segsPts T, x.x ≤ mt) {r : Relation}
    (hr : runOpenLinear context s (min mg mt) = .ok r) :
    (r = .equal → segsPts T = segsPts G) ∧ (r = .component → segsPts T ⊆ segsPts G) ∧
    (r = .composite → segsPts G ⊆ segsPts T) ∧ (r = .overlap → SharesPiece (segsPts T) (segsPts G)) ∧
    (r = .touch ∨ r = .cross → (segsPts T ∩ segsPts G).Nonempty) := by
  unfold runOpenLinear at hr
  obtain ⟨f, hf⟩ : ∃ f, (sweep true context (min mg mt) s).2 = .ok f := by
    unfold processOpenLinearQueue at hr
    cases hs : (sweep true context (min mg mt) s).2 with
    | ok f => exact ⟨f, rfl⟩
    | error e => rw [hs] at hr; cases hr
  have hsw := sweep_swept true hc (min mg mt) h.fresh hf
  obtain ⟨r', hr', c1, c2, c3, c4, c5, c6, -⟩ :=
    C28_open_linear context (sweep true context (min mg mt) s).1 f
  rw [show ((sweep true context (min mg mt) s).1, Except.ok f) = sweep true context (min mg mt) s from
    by rw [← hf], hr] at hr'
  obtain rfl := Except.ok.inj hr'
  have hw := h.fresh.wf
  rw [← h.goalPts] at hg ⊢
  rw [← h.testPts] at ht ⊢
  have sub := fun {b} => hsw.subset (context := context) hw hg ht rfl (b := b)
  refine ⟨fun e => ?_, fun e => ?_, fun e => ?_, fun e => ?_, fun e => ?_⟩
  · obtain ⟨h1, h2⟩ := c1.mp e
    exact Set.Subset.antisymm (sub h1.1 h1.2) (sub h2.1 h2.2)
  · obtain ⟨h1, -⟩ := c2.mp e
    exact sub h1.1 h1.2
  · obtain ⟨-, h1⟩ := c3.mp e
    exact sub h1.1 h1.2
  · obtain ⟨-, -, em, hem, h1⟩ := c4.mp e
    obtain ⟨k1, k2, -, k3⟩ := hsw.sound em hem
    have k3 := k3 h1
    cases hb : em.fromTest <;> rw [hb] at k2 k3
    · exact ⟨⟨em.start, em.finish⟩, k1.ne, k3, k2⟩
    · exact ⟨⟨em.start, em.finish⟩, k1.ne, k2, k3⟩
  · rcases e with e | e
    · obtain ⟨-, -, -, em, hem, h1⟩ := c6.mp e
      exact (hsw.sound em hem).2.2.1 (by rw [h1]; decide)
    · obtain ⟨-, -, -, em, hem, h1⟩ := c5.mp e
      exact (hsw.sound em hem).2.2.1 (by rw [h1]; decide)

end Orient.eventsQueue
