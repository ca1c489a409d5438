import Verif.Lemmas.Sweep.Register

/-! What a sweep emits: every event that does not stay in the queue, with true relations. -/

set_option linter.unusedSectionVars false

namespace Orient.eventsQueue

variable {K : Type} [Field K] [LinearOrder K] [IsStrictOrderedRing K]

open State

/-- `em` is the view of the left event of `e` at some moment between `s₀` and `d`. -/
def EmittedAt (s₀ d : State K) (e : Ev) (em : Emitted K) : Prop :=
  ∃ t, Runs s₀ t ∧ Runs t d ∧ t.Valid e ∧ em = emit t (t.leftOf e)

theorem EmittedAt.runs {s₀ d d' : State K} {e : Ev} {em : Emitted K} (h : EmittedAt s₀ d e em)
    (hr : Runs d d') : EmittedAt s₀ d' e em := by
  obtain ⟨t, h1, h2, h3, h4⟩ := h
  exact ⟨t, h1, h2.trans hr, h3, h4⟩

/-- Everything emitted is an event of the heap, and every event is queued, waits in the group or has
been emitted. -/
structure Collected (s₀ : State K) (ems : List (Emitted K)) (d : State K) (group : List Ev) : Prop where
  emitted : ∀ em ∈ ems, ∃ e, EmittedAt s₀ d e em
  all : ∀ e, d.Valid e → e ∈ d.queue ∨ e ∈ group ∨ ∃ em ∈ ems, EmittedAt s₀ d e em

theorem Collected.elems {s₀ d d' : State K} {ems : List (Emitted K)} {group : List Ev}
    (h : Collected s₀ ems d group) (he : Elems d d') : Collected s₀ ems d' group := by
  refine ⟨fun em hem => (h.emitted em hem).imp fun e h => h.runs he.runs, fun e hv => ?_⟩
  rcases he.queue.2 e hv with hv | hv
  · rcases h.all e hv with h | h | ⟨em, hem, h⟩
    · exact .inl (he.queue.1 e h)
    · exact .inr (.inl h)
    · exact .inr (.inr ⟨em, hem, h.runs he.runs⟩)
  · exact .inl hv

theorem Collected.close {s₀ d : State K} {ems : List (Emitted K)} {group : List Ev}
    (h : Collected s₀ ems d group) (hr : Runs s₀ d) (linear : Bool) (context : Context K) (hw : d.WF)
    {p : Point K} (hg : GroupOK d p group) :
    Collected s₀ (ems ++ (closeGroup linear context d group).1)
      (closeGroup linear context d group).2 [] := by
  obtain ⟨h1, h2, h3⟩ := closeGroup_spec linear context hw hg
  have key : ∀ e ∈ group, ∀ em, EmittedFor d (closeGroup linear context d group).2 e em →
      EmittedAt s₀ (closeGroup linear context d group).2 e em := by
    rintro e he em ⟨t, t1, t2, rfl⟩
    refine ⟨t, hr.trans t1.elems.runs, t2.elems.runs, t1.elems.valid (hg e he).1, ?_⟩
    rw [SameShape.leftOf t1.shape]
  have h4 := h.elems h1.elems
  refine ⟨fun em hem => ?_, fun e hv => ?_⟩
  · rcases List.mem_append.mp hem with hem | hem
    · exact h4.emitted em hem
    · obtain ⟨e, he, h⟩ := h2 em hem
      exact ⟨e, key e he em h⟩
  · rcases h4.all e hv with h | h | ⟨em, hem, h⟩
    · exact .inl h
    · obtain ⟨em, hem, h'⟩ := h3 e h
      exact .inr (.inr ⟨em, List.mem_append_right _ hem, key e h em h'⟩)
    · exact .inr (.inr ⟨em, List.mem_append_left _ hem, h⟩)

theorem Collected.pop {s₀ d : State K} {ems : List (Emitted K)} {group : List Ev}
    (h : Collected s₀ ems d group) {e : Ev} (he : e ∈ d.queue) :
    Collected s₀ ems (popped d e) (group ++ [e]) := by
  have hr : Runs d (popped d e) := (Runs.refl d).pop e he
  refine ⟨fun em hem => (h.emitted em hem).imp fun e h => h.runs hr, fun x hv => ?_⟩
  rcases h.all x hv with h | h | ⟨em, hem, h⟩
  · by_cases hx : x = e
    · subst hx; exact .inr (.inl (by simp))
    · exact .inl ((List.mem_erase_of_ne hx).mpr h)
  · exact .inr (.inl (by simp [h]))
  · exact .inr (.inr ⟨em, hem, h.runs hr⟩)

/-- An iteration that succeeds. -/
theorem sweepStep_ok {linear : Bool} {context : Context K} (hc : context.Exact) {stopX : K}
    {c d : Config K} (hi : Inv c) {ems : List (Emitted K)}
    (h : sweepStep linear context stopX c = some (ems, .ok d)) :
    ∃ e t, Iteration linear context stopX c e ems t d.start d.group ∧
      handle linear context t c.line e = .ok (d.s, d.line) ∧ Elems t d.s ∧
      d.line = lineAfter context t c.line e := by
  obtain ⟨e, t, start, group, it, hr⟩ := sweepStep_some h
  have hw := (it.runs hi).wf hi.wf
  have hl := hi.line.of_runs (it.runs hi)
  obtain ⟨h1, h2⟩ := handle_spec linear hc hw hl (it.valid hi) (it.notLine hi)
  cases hh : handle linear context t c.line e with
  | error err => rw [hh] at hr; cases hr
  | ok q =>
    rw [hh] at hr h1
    have hr : d = ⟨q.1, q.2, start, group⟩ := Except.ok.inj hr
    subst hr
    exact ⟨e, t, it, hh, h1, h2 q hh⟩

theorem Reaches.collected {linear : Bool} {context : Context K} (hc : context.Exact) {stopX : K}
    {c d : Config K} {ems : List (Emitted K)} (h : Reaches linear context stopX c ems d)
    (hi : Inv c) (h0 : Collected c.s [] c.s c.group) : Collected c.s ems d.s d.group := by
  induction h with
  | refl => exact h0
  | tail h1 h2 ih =>
    obtain ⟨hd, hruns⟩ := h1.inv hc hi
    obtain ⟨e, t, it, -, hel, -⟩ := sweepStep_ok hc hd h2
    have he := peek?_mem it.peek
    refine Collected.elems ?_ hel
    rcases it.closed with ⟨-, rfl, rfl, -, hg⟩ | ⟨-, rfl, rfl, -, hg⟩
    · rw [hg, List.append_nil]
      exact ih.pop he
    · rw [hg]
      obtain ⟨p, hp⟩ := hd.groupOK
      -- popping `e` and closing the group without `e`
      obtain ⟨q1, q2⟩ := ih.pop he
      rename_i d1 _
      have hpop : Runs c.s (popped d1.s e) := hruns.pop e he
      have hgr : GroupOK (popped d1.s e) p d1.group := hp
      obtain ⟨k1, k2, k3⟩ := closeGroup_spec linear context (pop_wf hd.wf e) hgr
      have key : ∀ x ∈ d1.group, ∀ em,
          EmittedFor (popped d1.s e) (closeGroup linear context (popped d1.s e) d1.group).2 x em →
          EmittedAt c.s (closeGroup linear context (popped d1.s e) d1.group).2 x em := by
        rintro x hx em ⟨t, t1, t2, rfl⟩
        refine ⟨t, hpop.trans t1.elems.runs, t2.elems.runs, t1.elems.valid (hgr x hx).1, ?_⟩
        rw [SameShape.leftOf t1.shape]
      refine ⟨fun em hem => ?_, fun x hv => ?_⟩
      · rcases List.mem_append.mp hem with hem | hem
        · exact (q1 em hem).imp fun x h => h.runs k1.elems.runs
        · obtain ⟨x, hx, h⟩ := k2 em hem
          exact ⟨x, key x hx em h⟩
      · rcases k1.elems.queue.2 x hv with hv | hv
        · rcases q2 x hv with h | h | ⟨em, hem, h⟩
          · exact .inl (k1.elems.queue.1 x h)
          · rcases List.mem_append.mp h with h | h
            · obtain ⟨em, hem, h'⟩ := k3 x h
              exact .inr (.inr ⟨em, List.mem_append_right _ hem, key x h em h'⟩)
            · exact .inr (.inl h)
          · exact .inr (.inr ⟨em, List.mem_append_left _ hem, h.runs k1.elems.runs⟩)
        · exact .inl hv

theorem Fresh.collected {s : State K} (h : s.Fresh) : Collected s [] s [] := by
  refine ⟨by simp, fun e hv => .inl ?_⟩
  cases e with
  | left i => exact h.lefts i hv
  | right i => exact h.rights i (h.nextRight ▸ hv)

/-! ### relations are true -/

/-- The recorded relations are true. -/
structure Truthful (s : State K) : Prop where
  common : ∀ i < s.nextLeft, (s.lefts i).relation ≠ .disjoint →
    (s.operand true ∩ s.operand false).Nonempty
  overlap : ∀ i < s.nextLeft, (s.lefts i).relation = .overlap →
    (s.seg i).pts ⊆ s.operand (!(s.lefts i).fromTest)

theorem seg_subset_operand (s : State K) {i : Nat} (hi : i < s.nextLeft) :
    (s.seg i).pts ⊆ s.operand (s.lefts i).fromTest := fun _ hx => ⟨i, hi, rfl, hx⟩

theorem Truthful.shape {s s' : State K} (h : Truthful s) (hs : SameShape s s')
    (hr : ∀ i < s.nextLeft, (s'.lefts i).relation = (s.lefts i).relation ∨
      ((s.operand true ∩ s.operand false).Nonempty ∧
        ((s'.lefts i).relation = .overlap → (s.seg i).pts ⊆ s.operand (!(s.lefts i).fromTest)))) :
    Truthful s' := by
  have ho : ∀ b, s'.operand b = s.operand b := (((Refines.refl s).shape hs).operand ·)
  refine ⟨fun i hi h' => ?_, fun i hi h' => ?_⟩
  · rw [hs.nextLeft] at hi
    rw [ho, ho]
    rcases hr i hi with h1 | h1
    · exact h.common i hi (h1 ▸ h')
    · exact h1.1
  · rw [hs.nextLeft] at hi
    rw [ho, hs.seg, hs.fromTest]
    rcases hr i hi with h1 | h1
    · exact h.overlap i hi (h1 ▸ h')
    · exact h1.2 h'

theorem Truthful.elem {s s' : State K} (hw : s.WF) (h : Truthful s) (he : Elem s s') :
    Truthful s' := by
  cases he with
  | flags hs hr => exact h.shape hs fun i _ => .inl (hr i)
  | relation hj =>
    refine h.shape hj.shape fun i hi => (hj.relation i).imp_right ?_
    rintro ⟨-, j, hj, hne, ⟨x, hx, hx'⟩, hov⟩
    have hb : (s.lefts j).fromTest = !(s.lefts i).fromTest := Bool.eq_not.mpr hne
    have h1 := seg_subset_operand s hi hx
    have h2 := seg_subset_operand s hj hx'
    rw [hb] at h2
    refine ⟨⟨x, ?_⟩, fun e => ?_⟩
    · cases hi' : (s.lefts i).fromTest <;> rw [hi'] at h1 h2
      · exact ⟨h2, h1⟩
      · exact ⟨h1, h2⟩
    · rw [hov e, ← hb]
      exact seg_subset_operand s hj
  | divide k p hk hp hj =>
    have ho : ∀ b, (s.divide k p).operand b = s.operand b :=
      (((Refines.refl s).divide hw hk hp).operand ·)
    obtain ⟨d1, d2, -⟩ := divide_parts hw hk hp
    have hold : ∀ i < s.nextLeft, ((s.divide k p).lefts i).relation = (s.lefts i).relation ∧
        ((s.divide k p).lefts i).fromTest = (s.lefts i).fromTest ∧
        ((s.divide k p).seg i).pts ⊆ (s.seg i).pts := by
      intro i hi
      by_cases hik : i = k
      · subst hik
        rw [divide_lefts_self hw hk p]
        exact ⟨rfl, rfl, d1⟩
      · rw [divide_lefts_other hw hk p hi hik, divide_seg_other hw hk p hi hik]
        exact ⟨rfl, rfl, subset_rfl⟩
    refine ⟨fun i hi h' => ?_, fun i hi h' => ?_⟩
    · rw [ho, ho]
      rcases Nat.lt_succ_iff_lt_or_eq.mp (show i < s.nextLeft + 1 from hi) with hi | rfl
      · exact h.common i hi ((hold i hi).1 ▸ h')
      · rw [divide_lefts_new hw hk p] at h'
        exact h.common k hk h'
    · rw [ho]
      rcases Nat.lt_succ_iff_lt_or_eq.mp (show i < s.nextLeft + 1 from hi) with hi | rfl
      · obtain ⟨e1, e2, e3⟩ := hold i hi
        rw [e2]
        exact e3.trans (h.overlap i hi (e1 ▸ h'))
      · rw [divide_lefts_new hw hk p] at h' ⊢
        exact d2.trans (h.overlap k hk h')

theorem Truthful.runs {s s' : State K} (hw : s.WF) (h : Truthful s) (hr : Runs s s') :
    Truthful s' := by
  induction hr with
  | refl => exact h
  | elem h1 h2 ih => exact ih.elem (h1.wf hw) h2
  | pop e _ _ ih => exact ⟨ih.common, ih.overlap⟩

theorem Fresh.truthful {s : State K} (h : s.Fresh) : Truthful s :=
  ⟨fun i hi h' => absurd (h.relation i hi) h',
    fun i hi h' => by rw [h.relation i hi] at h'; cases h'⟩

/-! ### the result of a sweep -/

/-- What is known of everything a sweep emits and of what stays in the queue. -/
structure Swept (s : State K) (stopX : K) (ems : List (Emitted K)) (d : State K) : Prop where
  wf : d.WF
  runs : Runs s d
  /-- emitted pieces are pieces of their operand, and their relations are true -/
  sound : ∀ em ∈ ems, em.start < em.finish ∧
    (⟨em.start, em.finish⟩ : Segment K).pts ⊆ s.operand em.fromTest ∧
    (em.relation ≠ .disjoint → (s.operand true ∩ s.operand false).Nonempty) ∧
    (em.relation = .overlap →
      (⟨em.start, em.finish⟩ : Segment K).pts ⊆ s.operand (!em.fromTest))
  /-- every point of an operand is on an emitted piece of it or on a queued one -/
  complete : ∀ b, ∀ x ∈ s.operand b, (∃ em ∈ ems, em.fromTest = b ∧
      x ∈ (⟨em.start, em.finish⟩ : Segment K).pts) ∨
    ∃ i, Ev.left i ∈ d.queue ∧ (d.lefts i).fromTest = b ∧ x ∈ (d.seg i).pts
  /-- what is queued starts beyond `stopX` -/
  beyond : ∀ e ∈ d.queue, stopX < (d.evStart e).x

theorem evStart_x_le {context : Context K} {s : State K} {e e' : Ev} (h : peek? context s = some e)
    (he : e' ∈ s.queue) : (s.evStart e).x ≤ (s.evStart e').x := by
  have := peek?_le h e' he
  rw [Point.le_iff] at this
  rcases this with h | h
  · exact h.le
  · exact h.1.le

theorem sweep_swept (linear : Bool) {context : Context K} (hc : context.Exact) (stopX : K)
    {s f : State K} (h : s.Fresh) (hf : (sweep linear context stopX s).2 = .ok f) :
    Swept s stopX (sweep linear context stopX s).1 f := by
  rcases sweep_ends linear hc stopX h.wf h.length with ⟨ems, d, h1, h2, h3, h4⟩ | ⟨h1, -⟩
  · obtain rfl := Except.ok.inj (hf.symm.trans h4)
    obtain ⟨hd, hruns⟩ := h1.inv hc (initial_inv context h.wf)
    have hruns : Runs s d.s := hruns
    have hcol := h1.collected hc (initial_inv context h.wf) (Fresh.collected h)
    obtain ⟨p, hp⟩ := hd.groupOK
    have hfin := hcol.close hruns linear context hd.wf hp
    obtain ⟨k1, -, -⟩ := closeGroup_spec linear context hd.wf hp
    rw [← h3] at hfin
    set d' := (closeGroup linear context d.s d.group).2
    have hr' : Runs s d' := hruns.trans k1.elems.runs
    have hop : ∀ t, Runs s t → ∀ b, t.operand b = s.operand b := by
      intro t ht b
      obtain ⟨o, ho⟩ := ht.refines h.wf
      exact ho.operand b
    refine ⟨hr'.wf h.wf, hr', fun em hem => ?_, fun b x hx => ?_, fun e he => ?_⟩
    · obtain ⟨e, t, t1, t2, hv, rfl⟩ := hfin.emitted em hem
      have hwt := t1.wf h.wf
      have hi := hwt.leftOf_lt hv
      have htr := (Fresh.truthful h).runs h.wf t1
      refine ⟨hwt.lt _ hi, ?_, fun hne => ?_, fun hov => ?_⟩
      · rw [← hop t t1]; exact seg_subset_operand t hi
      · rw [← hop t t1, ← hop t t1]; exact htr.common _ hi hne
      · rw [← hop t t1]; exact htr.overlap _ hi hov
    · rw [← hop d' hr'] at hx
      obtain ⟨i, hi, hb, hx⟩ := hx
      rcases hfin.all (.left i) hi with hq | hq | ⟨em, hem, t, t1, t2, hv, rfl⟩
      · exact .inr ⟨i, hq, hb, hx⟩
      · cases hq
      · refine .inl ⟨_, hem, ?_, ?_⟩
        · have := (t2.evStart (t1.wf h.wf) hv).2
          have : (d'.lefts i).fromTest = (t.lefts i).fromTest := this
          exact this.symm.trans hb
        · exact t2.seg_subset (t1.wf h.wf) hv hx
    · have hq : d'.queue = d.s.queue := k1.shape.queue
      rw [hq] at he
      rw [SameShape.evStart k1.shape]
      unfold sweepStep at h2
      cases hp : peek? context d.s with
      | none =>
        rw [peek?_none hp] at he
        cases he
      | some e' =>
        rw [hp] at h2
        simp only at h2
        split_ifs at h2 with hx
        exact lt_of_lt_of_le hx (evStart_x_le hp he)
  · rw [h1] at hf; cases hf

end Orient.eventsQueue
