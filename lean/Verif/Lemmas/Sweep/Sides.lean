import Verif.Lemmas.Sweep.SidedStep

/-! The flags of the compound queue are right at the end of a sweep. -/

set_option linter.unusedSectionVars false

namespace Orient.eventsQueue

variable {K : Type} [Field K] [LinearOrder K] [IsStrictOrderedRing K]

open Segment State

/-! ### right events -/

/-- The handling of a right event in the compound queue. -/
theorem handleCompound_right_ok {context : Context K} {s s' : State K}
    {line line' : List Nat} {r : Nat}
    (h : handle false context s line (.right r) = .ok (s', line'))
    (hc : sweepLine.contains context s (s.rights r).left line = true) :
    (∃ a b f, sweepLine.above context s (s.rights r).left line = some a ∧
        sweepLine.below context s (s.rights r).left line = some b ∧
        detectIntersectionCompound context s b a = .ok (s', f)) ∨ s' = s := by
  change handleCompound context s line (.right r) = _ at h
  simp only [handleCompound, hc, if_true, bind, Except.bind, pure, Except.pure] at h
  split at h
  · next a b ha hb =>
    split at h
    · cases h
    · next v hd =>
      simp only [Except.ok.injEq, Prod.mk.injEq] at h
      obtain ⟨rfl, rfl⟩ := h
      exact .inl ⟨a, b, v.2, ha, hb, hd⟩
  · simp only [Except.ok.injEq, Prod.mk.injEq] at h
    exact .inr h.1.symm

section

variable {ε : K} {P : Finset (Point K)} {s t s' : State K} {line : List Nat} {p : Point K}

/-- Right events do not change flags. -/
theorem Moving.right_kept {context : Context K} (hc : context.Exact)
    (hm : Moving ε P s line p) {r : Nat} (hr : Ev.right r ∈ s.queue)
    (hp : s.evStart (.right r) = p)
    (ht : SameShape (popped s (.right r)) t) {line' : List Nat}
    (h : eventsQueue.handle false context t line (.right r) = .ok (s', line')) : Kept t s' := by
  have hb := hm.base
  have c := hb.clock
  have hw := c.wf
  have hv := hw.queueRight r hr
  obtain ⟨i, hi⟩ : ∃ i, (s.rights r).left = i := ⟨_, rfl⟩
  have hin : i < s.nextLeft := hi ▸ (hw.rightLeft r hv).1
  have hir : (s.lefts i).right = r := hi ▸ (hw.rightLeft r hv).2
  have hend : s.leftEnd i = p := by rw [← hi, hw.leftEnd_left hv]; exact hp
  have hst : (s.lefts i).start < p := hend ▸ hw.lt i hin
  have hil : i ∈ line := (hb.active i).mpr ⟨hin, fun hm => absurd (hb.queue _ hm) (not_le.mpr hst),
    hir ▸ hr⟩
  obtain ⟨l₁, l₂, e⟩ := List.append_of_mem hil
  subst e
  have m1 : ∀ n ∈ l₁, n ∈ l₁ ++ i :: l₂ := fun n hn => List.mem_append_left _ hn
  have nd := List.nodup_cons.mp (List.nodup_middle.mp hb.nodup)
  have lts : ∀ i j, sweepLine.lt context t i j = sweepLine.lt context s i j := fun i j =>
    lt_shape ht context i j
  have below : sweepLine.AllBelow context t i l₁ := by
    intro n hn
    rw [lts, lts]
    have hn' := m1 n hn
    have hne : n ≠ i := fun e => nd.1 (e ▸ List.mem_append_left _ hn)
    have hk := (List.pairwise_append.mp hb.key).2.2 n hn i (List.mem_cons_self ..)
    exact (c.lt_of_key hc (hb.lt hn') hin hne (hst.le.trans (hb.le_end hn'))
      (hend ▸ hb.start_le hn') hk).symm
  have hit : (t.rights r).left = i := by rw [ht.rights]; exact hi
  have h9 := handleCompound_right_ok h (by rw [hit]; exact sweepLine.contains_split below)
  rw [hit, sweepLine.above_split below, sweepLine.below_split below] at h9
  have hbt : Base ε P t (l₁ ++ l₂) p := (hb.removed hr hi hp).shape ht
  have seg : ∀ i, t.seg i = s.seg i := fun i => ht.seg i
  have apart : ∀ b ∈ l₁, ∀ a ∈ l₂, ¬ Same ε (t.seg b) (t.seg a) := by
    intro b hb' a ha hs
    rw [seg, seg] at hs
    rcases hm.phase with h | h
    · have h1 := (List.pairwise_append.mp h.sorted).2.2 b hb' i (List.mem_cons_self ..)
      have h2 := (List.pairwise_cons.mp (List.pairwise_append.mp h.sorted).2.1).1 a ha
      exact (h1.strict h2).not_same hs
    · have h1 := (List.pairwise_append.mp h.sorted).2.2 b hb' i (List.mem_cons_self ..)
      have h2 := (List.pairwise_cons.mp (List.pairwise_append.mp h.sorted).2.1).1 a ha
      exact (h1.strict h2).not_same hs
  rcases h9 with ⟨a, b, f, ha, hb', hdet⟩ | rfl
  · have ham : a ∈ l₂ := List.mem_of_mem_head? ha
    have hbm : b ∈ l₁ := List.mem_of_mem_getLast? hb'
    have ha2 : a ∈ l₁ ++ l₂ := List.mem_append_right _ ham
    have hb2 : b ∈ l₁ ++ l₂ := List.mem_append_left _ hbm
    have hns := apart b hbm a ham
    have D := detected hc hbt.clock (hbt.lt hb2) (hbt.lt ha2) (p := p) (fun z hz hz' hi => by
      by_contra hlt
      obtain ⟨k1, k2⟩ := hbt.past b (hbt.lt hb2) a (hbt.lt ha2) hns z hz hz' (not_le.mp hlt)
      rcases hi with hi | hi
      · exact hi.2 k1
      · exact hi.2 k2) hdet
    refine D.kept ?_
    cases hf : f with
    | false => rfl
    | true => exact absurd (D.twins.mp hf).1 hns
  · exact .refl _

/-- The flags while a right event is handled. -/
structure RightStep (ε : K) (P : Finset (Point K)) (s t s' : State K) (r : Nat) : Prop where
  clock : Clock ε P t
  shape : SameShape (popped s (.right r)) t
  other : ∀ i, (t.lefts i).otherInteriorToLeft = (s.lefts i).otherInteriorToLeft
  kind : ∀ i, (t.lefts i).overlapKind = (s.lefts i).overlapKind
  elems : Elems t s'
  kept : Kept t s'

section

variable {r : Nat} (h : RightStep ε P s t s' r)

include h

theorem RightStep.mem_queue {i : Nat} : Ev.left i ∈ t.queue ↔ Ev.left i ∈ s.queue := by
  rw [h.shape.queue]
  exact List.mem_erase_of_ne (by simp)

theorem RightStep.handled {i : Nat} (hi : i < s'.nextLeft) (hq : Ev.left i ∉ s'.queue) :
    i < t.nextLeft ∧ Ev.left i ∉ s.queue := by
  have hv : t.Valid (.left i) := (h.elems.queue.2 (.left i) hi).resolve_right hq
  exact ⟨hv, fun hm => hq (h.elems.queue.1 _ (h.mem_queue.mpr hm))⟩

theorem RightStep.not_queued {i : Nat} (hi : i < t.nextLeft) (hq : Ev.left i ∉ s.queue) :
    Ev.left i ∉ s'.queue :=
  Elems.not_mem h.elems (e := .left i) hi fun hm => hq (h.mem_queue.mp hm)

theorem RightStep.twins {i j : Nat} (hi : i < t.nextLeft) (hj : j < t.nextLeft) :
    Twins ε s' i j ↔ Twins ε s i j := by
  rw [Elems.twins h.clock h.elems hi hj]
  unfold Twins
  rw [h.shape.seg, h.shape.seg, h.shape.start, h.shape.start]; rfl

theorem RightStep.fromTest {i : Nat} (hi : i < t.nextLeft) :
    (s'.lefts i).fromTest = (s.lefts i).fromTest :=
  (show _ = (t.lefts i).fromTest from (h.elems.evStart h.clock.wf (e := .left i) hi).2).trans
    (h.shape.fromTest i)

theorem RightStep.start {i : Nat} (hi : i < t.nextLeft) :
    (s'.lefts i).start = (s.lefts i).start :=
  (show _ = (t.lefts i).start from (h.elems.evStart h.clock.wf (e := .left i) hi).1).trans
    (h.shape.start i)

theorem RightStep.interiorToLeft {i : Nat} (hi : i < t.nextLeft) :
    (s'.lefts i).interiorToLeft = (s.lefts i).interiorToLeft :=
  (Elems.interiorToLeft h.elems hi).trans (h.shape.interiorToLeft i)

theorem RightStep.kinds (hk : Kinds ε s) : Kinds ε s' := by
  have e : t.nextLeft = s.nextLeft := h.shape.nextLeft
  refine ⟨fun i hq => ?_, fun i hi hne => ?_, fun i hi j hj hqi hqj hf htw => ?_⟩
  · by_cases hi : i < t.nextLeft
    · have hq' : Ev.left i ∈ s.queue := by
        by_contra hn
        exact h.not_queued hi hn hq
      rw [h.kept.other i hi, h.kept.kind i hi, h.other, h.kind]
      exact hk.queued i hq'
    · have hi' := (h.elems.wf h.clock.wf).queueLeft i hq
      exact ⟨h.kept.newOther i (not_lt.mp hi) hi', h.kept.newKind i (not_lt.mp hi) hi'⟩
  · by_cases hi' : i < t.nextLeft
    swap
    · exact absurd (h.kept.newKind i (not_lt.mp hi') hi) hne
    rw [h.kept.kind i hi', h.kind] at hne
    obtain ⟨j, hj, hqj, hf, htw⟩ := hk.twin i (e ▸ hi') hne
    have hj' : j < t.nextLeft := e ▸ hj
    refine ⟨j, hj'.trans_le h.kept.le, h.not_queued hj' hqj, ?_, (h.twins hi' hj').mpr htw⟩
    rw [h.fromTest hi', h.fromTest hj']; exact hf
  · obtain ⟨hi', hqi'⟩ := h.handled hi hqi
    obtain ⟨hj', hqj'⟩ := h.handled hj hqj
    rw [h.fromTest hi', h.fromTest hj'] at hf
    rw [h.kept.kind i hi', h.kind, kindOf_congr (h.interiorToLeft hi') (h.interiorToLeft hj')]
    exact hk.kind i (e ▸ hi') j (e ▸ hj') hqi' hqj' hf ((h.twins hi' hj').mp htw)

theorem RightStep.sided {s₀ : State K} {b : Bool} (hs : Sided ε P s₀ s b) : Sided ε P s₀ s' b := by
  intro i hi hq hf prov
  have e : t.nextLeft = s.nextLeft := h.shape.nextLeft
  obtain ⟨hin, hq⟩ := h.handled hi hq
  rw [h.fromTest hin] at hf
  refine (hs i (e ▸ hin) hq hf fun eb q hqs ht => ?_).congr (h.start hin) (h.fromTest hin)
    ((h.kept.other i hin).trans (h.other i)) ?_
  · have hqt := h.mem_queue.mpr hqs
    exact prov eb q (h.elems.queue.1 _ hqt) ((h.twins hin (h.clock.wf.queueLeft q hqt)).mpr ht)
  · have := h.clock.same h.elems hin
    rwa [h.shape.seg] at this

end

end

/-! ### the whole sweep -/

/-- What is emitted for a piece. -/
structure Shows (s : State K) (i : Nat) (em : Emitted K) : Prop where
  start : em.start = (s.lefts i).start
  fromTest : em.fromTest = (s.lefts i).fromTest
  kind : em.overlapKind = (s.lefts i).overlapKind
  interiorToLeft : em.interiorToLeft = (s.lefts i).interiorToLeft
  other : em.otherInteriorToLeft = (s.lefts i).otherInteriorToLeft

theorem Shows.up {s t : State K} (h : Up s t) {i : Nat} {em : Emitted K} (hs : Shows s i em) :
    Shows t i em :=
  ⟨hs.start.trans (h.shape.start i).symm, hs.fromTest.trans (h.shape.fromTest i).symm,
    hs.kind.trans (h.kind i).symm, hs.interiorToLeft.trans (h.shape.interiorToLeft i).symm,
    hs.other.trans (h.other i).symm⟩

theorem shows_emit (s : State K) (i : Nat) : Shows s i (emit s i) := ⟨rfl, rfl, rfl, rfl, rfl⟩

theorem Completed.shows {s s' : State K} {group : List Ev} {e : Ev} {em : Emitted K}
    (h : Completed s s' group e em) : Shows s' (s.leftOf e) em := by
  obtain ⟨t, -, u, rfl, -⟩ := h
  exact (shows_emit t _).up u

/-- What is known of the flags between the iterations. -/
structure Sides (ε : K) (P : Finset (Point K)) (s₀ s : State K) (ems : List (Emitted K))
    (p : Point K) : Prop where
  kinds : Kinds ε s
  sided : ∀ b, Bounds ε P s₀ (!b) → Sided ε P s₀ s b
  shown : ∀ em ∈ ems, ∃ i < s.nextLeft, (s.lefts i).start < p ∧ Shows s i em
  shows : ∀ i < s.nextLeft, (s.lefts i).start < p → ∃ em ∈ ems, Shows s i em

section

variable {ε : K} {P : Finset (Point K)} {s₀ s t s' : State K} {line : List Nat} {p : Point K}

/-- The flags of what has been emitted do not change any more. -/
theorem shows_step {I : Nat → Prop} (hw : t.WF) (cuts : Cuts p I t s')
    (other : ∀ i < t.nextLeft, (t.lefts i).start < p →
      (s'.lefts i).otherInteriorToLeft = (t.lefts i).otherInteriorToLeft)
    (kind : ∀ i < t.nextLeft, (t.lefts i).start < p →
      (s'.lefts i).overlapKind = (t.lefts i).overlapKind) {ems : List (Emitted K)}
    (shown : ∀ em ∈ ems, ∃ i < t.nextLeft, (t.lefts i).start < p ∧ Shows t i em)
    (shows' : ∀ i < t.nextLeft, (t.lefts i).start < p → ∃ em ∈ ems, Shows t i em) :
    (∀ em ∈ ems, ∃ i < s'.nextLeft, (s'.lefts i).start < p ∧ Shows s' i em) ∧
    (∀ i < s'.nextLeft, (s'.lefts i).start < p → ∃ em ∈ ems, Shows s' i em) := by
  have key : ∀ i < t.nextLeft, (t.lefts i).start < p → ∀ em : Emitted K, Shows t i em →
      Shows s' i em := fun i hi hp em h =>
    ⟨h.start.trans (cuts.start hw hi).symm, h.fromTest.trans (cuts.fromTest hw hi).symm,
      h.kind.trans (kind i hi hp).symm, h.interiorToLeft.trans (Elems.interiorToLeft cuts.elems hi).symm,
      h.other.trans (other i hi hp).symm⟩
  refine ⟨fun em hem => ?_, fun i hi hp => ?_⟩
  · obtain ⟨i, hi, hp, h⟩ := shown em hem
    exact ⟨i, hi.trans_le cuts.elems.nextLeft_le.1, (cuts.start hw hi).trans_lt hp, key i hi hp em h⟩
  · by_cases hi' : i < t.nextLeft
    · rw [cuts.start hw hi'] at hp
      obtain ⟨em, hem, h⟩ := shows' i hi' hp
      exact ⟨em, hem, key i hi' hp em h⟩
    · exact absurd hp (not_lt.mpr (cuts.new hw (not_lt.mp hi') hi).2)

theorem Sides.handle {context : Context K} (hc : context.Exact) (hm : Moving ε P s line p) {e : Ev}
    (hpk : peek? context s = some e) (hp : s.evStart e = p) (ht : Up (popped s e) t)
    {line' : List Nat} (h : eventsQueue.handle false context t line e = .ok (s', line'))
    (c₀ : Clock ε P s₀) (hr : Runs s₀ t) {ems : List (Emitted K)}
    (kinds : Kinds ε s) (sided : ∀ b, Bounds ε P s₀ (!b) → Sided ε P s₀ s b)
    (shown : ∀ em ∈ ems, ∃ i < t.nextLeft, (t.lefts i).start < p ∧ Shows t i em)
    (shows' : ∀ i < t.nextLeft, (t.lefts i).start < p → ∃ em ∈ ems, Shows t i em) :
    Sides ε P s₀ s' ems p := by
  obtain ⟨-, cuts⟩ := hm.handle hc hpk hp ht.shape h
  have he := peek?_mem hpk
  cases e with
  | left k =>
    have hno : ∀ r, Ev.right r ∈ s.queue → s.evStart (.right r) ≠ p := fun r hr e => by
      have := (peek?_prec hpk _ hr).2 (hp.trans e.symm) rfl
      cases this
    obtain ⟨l₁, l₂, ins⟩ := hm.insert hc he hp hno ht.shape
    obtain ⟨-, flags⟩ := ins.leftFlags hc h
    have st : LeftStep ε P context s t s' line p k l₁ l₂ :=
      ⟨hm, hpk, hp, ht.shape, ht.other, ht.kind, ins, flags, cuts⟩
    have other : ∀ i < t.nextLeft, (t.lefts i).start < p →
        (s'.lefts i).otherInteriorToLeft = (t.lefts i).otherInteriorToLeft ∧
        (s'.lefts i).overlapKind = (t.lefts i).overlapKind := by
      intro i hi hip
      have hik : i ≠ k := by rintro rfl; exact hip.ne ins.start
      rcases st.effect.eff with ⟨w, -, tw, -, e1, e2⟩ | ⟨-, e1, e2⟩
      · have hiw : i ≠ w := by rintro rfl; exact hip.ne (tw.2.trans ins.start)
        exact ⟨e2 i hi hik hiw, by rw [e1 i hi, if_neg (by rintro (e | e); exacts [hik e, hiw e])]⟩
      · exact ⟨e2 i hi hik, e1 i hi⟩
    obtain ⟨a1, a2⟩ := shows_step ins.base.clock.wf cuts (fun i hi hip => (other i hi hip).1)
      (fun i hi hip => (other i hi hip).2) shown shows'
    exact ⟨st.kinds kinds, fun b hB => st.sided hc c₀ hr hB kinds (sided b hB), a1, a2⟩
  | right r =>
    have kept := hm.right_kept hc he hp ht.shape h
    have ct : Clock ε P t := by
      have c := hm.base.clock.pop (.right r)
      have h := ht.shape
      refine ⟨h.wf c.wf, ⟨?_, ?_, ?_⟩, c.mono⟩
      · rw [h.nextLeft]; intro i hi; rw [h.start]; exact c.points.start i hi
      · rw [h.nextLeft]; intro i hi; rw [h.leftEnd]; exact c.points.finish i hi
      · rw [h.nextLeft]; intro i hi j hj; rw [h.seg, h.seg]; exact c.points.common i hi j hj
    have st : RightStep ε P s t s' r := ⟨ct, ht.shape, ht.other, ht.kind, cuts.elems, kept⟩
    obtain ⟨a1, a2⟩ := shows_step ct.wf cuts (fun i hi _ => kept.other i hi)
      (fun i hi _ => kept.kind i hi) shown shows'
    exact ⟨st.kinds kinds, fun b hB => st.sided (sided b hB), a1, a2⟩

end

/-! ### the induction -/

section

variable {ε : K} {P : Finset (Point K)} {s₀ : State K}

/-- What is emitted for a group shows the flags of the pieces which start until it. -/
theorem shows_close {context : Context K} {s : State K} {group : List Ev} {p : Point K}
    (hw : s.WF) (valid : ∀ e ∈ group, s.Valid e ∧ s.evStart e = p)
    (full : ∀ i < s.nextLeft, (s.lefts i).start = p → Ev.left i ∈ group) {ems : List (Emitted K)}
    (shown : ∀ em ∈ ems, ∃ i < s.nextLeft, (s.lefts i).start < p ∧ Shows s i em)
    (shows' : ∀ i < s.nextLeft, (s.lefts i).start < p → ∃ em ∈ ems, Shows s i em) {t : State K}
    (et : t = (closeGroup false context s group).2) :
    (∀ em ∈ ems ++ (closeGroup false context s group).1,
      ∃ i < t.nextLeft, (t.lefts i).start ≤ p ∧ Shows t i em) ∧
    (∀ i < t.nextLeft, (t.lefts i).start ≤ p →
      ∃ em ∈ ems ++ (closeGroup false context s group).1, Shows t i em) := by
  obtain ⟨u, a1, a2⟩ := closeGroup_up false context s group
  rw [← et] at u a1 a2
  refine ⟨fun em hem => ?_, fun i hi hp => ?_⟩
  · rcases List.mem_append.mp hem with hem | hem
    · obtain ⟨i, h1, h2, h3⟩ := shown em hem
      exact ⟨i, u.shape.nextLeft ▸ h1, (u.shape.start i).trans_le h2.le, h3.up u⟩
    · obtain ⟨e, he, hcm⟩ := a1 em hem
      obtain ⟨hv, hs⟩ := valid e he
      refine ⟨s.leftOf e, ?_, ?_, hcm.shows⟩
      · rw [u.shape.nextLeft]
        cases e with
        | left i => exact hv
        | right r => exact (hw.rightLeft r hv).1
      · rw [u.shape.start]
        cases e with
        | left i => exact hs.le
        | right r =>
          have := hw.lt _ (hw.rightLeft r hv).1
          rw [hw.leftEnd_left hv] at this
          exact this.le.trans_eq hs
  · rw [u.shape.nextLeft] at hi
    rw [u.shape.start] at hp
    rcases hp.lt_or_eq with hp | hp
    · obtain ⟨em, h1, h2⟩ := shows' i hi hp
      exact ⟨em, List.mem_append_left _ h1, h2.up u⟩
    · obtain ⟨em, h1, h2⟩ := a2 _ (full i hi hp)
      exact ⟨em, List.mem_append_right _ h1, h2.shows⟩

theorem Sides.step {context : Context K} (hc : context.Exact) {stopX : K} {c d : Config K}
    (hi : Inv c) (c₀ : Clock ε P s₀) (hr : Runs s₀ c.s) {ems ems' : List (Emitted K)} {p : Point K}
    (tr : Track ε P c ems p) (sd : Sides ε P s₀ c.s ems p)
    (h : sweepStep false context stopX c = some (ems', .ok d)) :
    ∃ q, d.start = some q ∧ Sides ε P s₀ d.s (ems ++ ems') q := by
  obtain ⟨e, t, it, hh, hel, -⟩ := sweepStep_ok hc hi h
  have hpk := it.peek
  have hmem := peek?_mem hpk
  have hb := tr.moving.base
  have hw := hi.wf
  obtain ⟨q, hq⟩ : ∃ q, c.s.evStart e = q := ⟨_, rfl⟩
  have hrt : Runs s₀ t := hr.trans (it.runs hi)
  have shape := (it.rels hi).shape
  refine ⟨q, ?_, ?_⟩
  · rcases it.closed with ⟨hs, -, -, h4, -⟩ | ⟨hs, -, -, h4, -⟩
    · rw [h4, ← hs, hq]
    · rw [h4, SameShape.evStart shape]; exact congrArg some hq
  rcases it.closed with ⟨hs, rfl, rfl, -, hg⟩ | ⟨hs, rfl, ht, -, hg⟩
  · rw [hq, tr.start] at hs
    obtain rfl := Option.some.inj hs
    rw [List.append_nil]
    exact Sides.handle hc tr.moving hpk hq (.refl _) hh c₀ hrt sd.kinds sd.sided
      (fun em hem => by
        obtain ⟨i, h1, h2, h3⟩ := sd.shown em hem
        exact ⟨i, h1, h2, ⟨h3.start, h3.fromTest, h3.kind, h3.interiorToLeft, h3.other⟩⟩)
      (fun i h1 h2 => by
        obtain ⟨em, hem, h3⟩ := sd.shows i h1 h2
        exact ⟨em, hem, ⟨h3.start, h3.fromTest, h3.kind, h3.interiorToLeft, h3.other⟩⟩)
  · rw [hq, tr.start] at hs
    have hlt : p < q := lt_of_le_of_ne (hq ▸ hb.queue e hmem) fun e => hs (congrArg some e.symm)
    have hall : ∀ x ∈ c.s.queue, q ≤ c.s.evStart x := hq ▸ peek?_le hpk
    obtain ⟨m, -⟩ := tr.moving.advance hlt hall ⟨e, hmem, hq⟩
    have hgr : GroupOK (popped c.s e) p c.group := hi.group p tr.start
    obtain ⟨a1, a2⟩ := shows_close (context := context) (s := popped c.s e) (p := p)
      (pop_wf hw e) hgr
      (fun i hi hp => tr.full (.left i) hi (fun hm => absurd (hall _ hm) (not_le.mpr (by
        rw [show c.s.evStart (.left i) = p from hp]; exact hlt))) hp)
      (fun em hem => by
        obtain ⟨i, h1, h2, h3⟩ := sd.shown em hem
        exact ⟨i, h1, h2, ⟨h3.start, h3.fromTest, h3.kind, h3.interiorToLeft, h3.other⟩⟩)
      (fun i h1 h2 => by
        obtain ⟨em, hem, h3⟩ := sd.shows i h1 h2
        exact ⟨em, hem, ⟨h3.start, h3.fromTest, h3.kind, h3.interiorToLeft, h3.other⟩⟩) ht
    refine Sides.handle hc m hpk hq (ht ▸ (closeGroup_up false context _ _).1) hh c₀ hrt
      sd.kinds sd.sided ?_ ?_
    · intro em hem
      obtain ⟨i, h1, h2, h3⟩ := a1 em hem
      exact ⟨i, h1, h2.trans_lt hlt, h3⟩
    · intro i h1 h2
      refine a2 i h1 ?_
      rw [shape.start] at h2 ⊢
      rw [shape.nextLeft] at h1
      exact hb.popped (.left i) h1 fun hm => absurd (hall _ hm) (not_le.mpr h2)

theorem sides_initial {context : Context K} {s : State K} (h : s.Fresh) (c : Clock ε P s) {e : Ev}
    (he : peek? context s = some e) : Sides ε P s s [] (s.evStart e) := by
  refine ⟨⟨fun i hi => ?_, fun i hi hne => ?_, fun i hi j hj hq => ?_⟩, fun b _ i hi hq => ?_,
    by simp, fun i hi hp => ?_⟩
  · have := h.wf.queueLeft i hi
    exact ⟨h.other i this, h.overlapKind i this⟩
  · exact absurd (h.overlapKind i hi) hne
  · exact absurd (h.lefts i hi) hq
  · exact absurd (h.lefts i hi) hq
  · exact absurd (peek?_le he _ (h.lefts i hi)) (not_le.mpr hp)

theorem Reaches.sides {context : Context K} (hc : context.Exact) {stopX : K} {s : State K}
    (h : s.Fresh) (c : Clock ε P s) (hcl : ¬ Clash s) {e : Ev} (he : peek? context s = some e)
    {d : Config K} {ems : List (Emitted K)}
    (hr : Reaches false context stopX (initial context s) ems d) :
    ∃ p, Track ε P d ems p ∧ (p.x ≤ stopX ∨ d.group = [] ∧ ems = []) ∧ Sides ε P s d.s ems p := by
  induction hr with
  | refl => exact ⟨_, track_initial h c hcl he, .inr ⟨rfl, rfl⟩, sides_initial h c he⟩
  | tail h1 h2 ih =>
    obtain ⟨p, tr, -, sd⟩ := ih
    obtain ⟨hi, hruns⟩ := h1.inv hc (initial_inv context h.wf)
    obtain ⟨p', tr', hx⟩ := tr.step hc hi h2
    obtain ⟨q, h3, sd'⟩ := sd.step hc hi c hruns tr h2
    rw [tr'.start] at h3
    obtain rfl := Option.some.inj h3
    exact ⟨p', tr', .inl hx, sd'⟩

theorem Reaches.stays {linear : Bool} {context : Context K} {stopX : K} {c d : Config K}
    {ems : List (Emitted K)} (hr : Reaches linear context stopX c ems d)
    (h : sweepStep linear context stopX c = none) : ems = [] ∧ d = c := by
  induction hr with
  | refl => exact ⟨rfl, rfl⟩
  | tail h1 h2 ih =>
    obtain ⟨rfl, rfl⟩ := ih
    rw [h] at h2
    cases h2

/-- What is known when a sweep of the compound queue is over. -/
structure Judged (ε : K) (P : Finset (Point K)) (s₀ s : State K) (stopX : K)
    (ems : List (Emitted K)) : Prop where
  clock : Clock ε P s
  runs : Runs s₀ s
  resolved : Resolved ε s stopX
  handled : ∀ i < s.nextLeft, (s.lefts i).start.x ≤ stopX → Ev.left i ∉ s.queue
  kinds : Kinds ε s
  sided : ∀ b, Bounds ε P s₀ (!b) → Sided ε P s₀ s b
  shown : ∀ em ∈ ems, ∃ i < s.nextLeft, (s.lefts i).start.x ≤ stopX ∧ Shows s i em
  shows : ∀ i < s.nextLeft, (s.lefts i).start.x ≤ stopX → ∃ em ∈ ems, Shows s i em

theorem Kinds.up {s t : State K} (hk : Kinds ε s) (u : Up s t) : Kinds ε t := by
  have seg := u.shape.seg
  have tw : ∀ i j, Twins ε t i j ↔ Twins ε s i j := by
    intro i j; unfold Twins; rw [seg, seg, u.shape.start, u.shape.start]
  have il := u.shape.interiorToLeft
  have ft := u.shape.fromTest
  refine ⟨fun i hi => ?_, fun i hi hne => ?_, fun i hi j hj h1 h2 h3 h4 => ?_⟩
  · rw [u.other, u.kind]; exact hk.queued i (u.shape.queue ▸ hi)
  · rw [u.kind] at hne
    obtain ⟨j, h1, h2, h3, h4⟩ := hk.twin i (u.shape.nextLeft ▸ hi) hne
    exact ⟨j, u.shape.nextLeft ▸ h1, u.shape.queue ▸ h2, by rw [ft, ft]; exact h3, (tw i j).mpr h4⟩
  · rw [u.kind, kindOf_congr (il i) (il j)]
    rw [ft, ft] at h3
    exact hk.kind i (u.shape.nextLeft ▸ hi) j (u.shape.nextLeft ▸ hj) (u.shape.queue ▸ h1)
      (u.shape.queue ▸ h2) h3 ((tw i j).mp h4)

theorem Sided.up {s t : State K} {b : Bool} (hs : Sided ε P s₀ s b) (u : Up s t) :
    Sided ε P s₀ t b := by
  intro i hi hq hf prov
  refine (hs i (u.shape.nextLeft ▸ hi) (u.shape.queue ▸ hq) ((u.shape.fromTest i).symm.trans hf)
    fun eb q hq ht => ?_).congr (u.shape.start i) (u.shape.fromTest i) (u.other i) ?_
  · refine prov eb q (by rw [u.shape.queue]; exact hq) ?_
    unfold Twins
    rw [u.shape.seg, u.shape.seg, u.shape.start, u.shape.start]
    exact ht
  · rw [u.shape.seg]; exact .refl ..

theorem sweep_judged {context : Context K} (hc : context.Exact) (stopX : K)
    {s f : State K} (h : s.Fresh) (c : Clock ε P s) (hcl : ¬ Clash s)
    (hf : (sweep false context stopX s).2 = .ok f) :
    Judged ε P s f stopX (sweep false context stopX s).1 := by
  rcases sweep_ends false hc stopX h.wf h.length with ⟨ems, d, h1, h2, h3, h4⟩ | ⟨h1, -⟩
  swap
  · rw [h1] at hf; cases hf
  obtain ⟨hd, hruns⟩ := h1.inv hc (initial_inv context h.wf)
  have hruns : Runs s d.s := hruns
  have beyond := sweepStep_beyond h2
  rw [h4] at hf
  have hf : (closeGroup false context d.s d.group).2 = f := by simpa using hf
  cases he : peek? context s with
  | none =>
    -- there is nothing at all
    have hempty := peek?_none he
    have n0 : s.nextLeft = 0 := by
      by_contra hn
      have := h.lefts 0 (Nat.pos_of_ne_zero hn)
      rw [hempty] at this; cases this
    have hd0 : ems = [] ∧ d = initial context s := by
      refine h1.stays ?_
      unfold sweepStep
      simp [initial, he]
    obtain ⟨rfl, rfl⟩ := hd0
    have e1 : (closeGroup false context (initial context s).s (initial context s).group) = ([], s) := rfl
    rw [e1] at hf h3
    rw [h3]
    subst hf
    refine ⟨c, hruns, ⟨?_, ?_, ?_⟩, ?_, ⟨?_, ?_, ?_⟩, ?_, ?_, ?_⟩
    · intro i hi; rw [n0] at hi; cases hi
    · intro i hi; rw [n0] at hi; cases hi
    · intro i hi; rw [n0] at hi; cases hi
    · intro i hi; rw [n0] at hi; cases hi
    · intro i hi; rw [hempty] at hi; cases hi
    · intro i hi; rw [n0] at hi; cases hi
    · intro i hi; rw [n0] at hi; cases hi
    · intro b _ i hi; rw [n0] at hi; cases hi
    · simp
    · intro i hi; rw [n0] at hi; cases hi
  | some e₀ =>
    obtain ⟨p, tr, hx, sd⟩ := h1.sides hc h c hcl he
    have hb := tr.moving.base
    have cd := hb.clock
    have hgr : GroupOK d.s p d.group := hd.group p tr.start
    obtain ⟨k1, -, -⟩ := closeGroup_spec false context hd.wf hgr
    have u := (closeGroup_up false context d.s d.group).1
    rw [h3]
    have handled : ∀ i < d.s.nextLeft, (d.s.lefts i).start.x ≤ stopX → Ev.left i ∉ d.s.queue :=
      fun i _ hle hm => absurd (beyond _ hm) (not_lt.mpr hle)
    have fin : (∀ em ∈ ems ++ (closeGroup false context d.s d.group).1,
          ∃ i < f.nextLeft, (f.lefts i).start.x ≤ stopX ∧ Shows f i em) ∧
        (∀ i < f.nextLeft, (f.lefts i).start.x ≤ stopX →
          ∃ em ∈ ems ++ (closeGroup false context d.s d.group).1, Shows f i em) := by
      by_cases hpx : p.x ≤ stopX
      · obtain ⟨a1, a2⟩ := shows_close (context := context) (s := d.s) (p := p) hd.wf hgr
          (fun i hi hp => tr.full (.left i) hi (handled i hi (by rw [hp]; exact hpx)) hp)
          sd.shown sd.shows hf.symm
        refine ⟨fun em hem => ?_, fun i hi hp => a2 i hi ?_⟩
        · obtain ⟨i, b1, b2, b3⟩ := a1 em hem
          exact ⟨i, b1, (x_le_of_le b2).trans hpx, b3⟩
        · rw [← hf, u.shape.start] at hp ⊢
          rw [← hf, u.shape.nextLeft] at hi
          exact hb.popped (.left i) hi (handled i hi hp)
      · obtain ⟨hg, rfl⟩ := hx.resolve_left hpx
        have hcg : closeGroup false context d.s d.group = ([], d.s) := by rw [hg]; rfl
        rw [hcg] at hf ⊢
        subst hf
        rw [List.append_nil]
        refine ⟨by simp, fun i hi hp => sd.shows i hi ?_⟩
        exact (Point.lt_iff _ _).mpr (.inl (hp.trans_lt (not_le.mp hpx)))
    subst hf
    exact ⟨cd.elems k1.elems, hruns.trans k1.elems.runs, (tr.resolved context beyond).shape u.shape,
      fun i hi hle => by
        rw [u.shape.queue]
        rw [u.shape.start] at hle
        exact handled i (u.shape.nextLeft ▸ hi) hle,
      sd.kinds.up u, fun b hB => (sd.sided b hB).up u, fin.1, fin.2⟩

end

end Orient.eventsQueue
