import Verif.Lemmas.Sweep.Sided

/-! The flags of the compound queue stay right when an event is handled. -/

set_option linter.unusedSectionVars false

namespace Orient.eventsQueue

variable {K : Type} [Field K] [LinearOrder K] [IsStrictOrderedRing K]

open Segment State

section

variable {ε : K} {P : Finset (Point K)} {s t s' : State K} {line : List Nat} {p : Point K}
  {k : Nat} {l₁ l₂ : List Nat}

/-- The queued pieces which start together with the least one are above it, or they are pieces of the
test operand along it. -/
theorem after_of_peek {context : Context K} (hc : context.Exact) (hb : Base ε P s line p)
    (hpk : peek? context s = some (.left k)) (hp : (s.lefts k).start = p) {q : Nat}
    (hq : Ev.left q ∈ s.queue) (hqp : (s.lefts q).start = p) (hne : q ≠ k) :
    After ε (p.time ε) (s.seg k) (s.seg q) ∨ (Same ε (s.seg k) (s.seg q) ∧
      (s.lefts k).fromTest = false ∧ (s.lefts q).fromTest = true) := by
  have c := hb.clock
  have hw := c.wf
  have hkn := hw.queueLeft k (peek?_mem hpk)
  have hqn := hw.queueLeft q hq
  obtain ⟨h1, h2⟩ := (peek?_leads hc c hpk _ hq).left k q rfl rfl (hp.trans hqp.symm)
  have hh : (s.seg k).height ε (p.time ε) = (s.seg q).height ε (p.time ε) := by
    have e1 : (s.seg k).height ε (p.time ε) = p.y := by
      have := height_start (ε := ε) (s.seg k)
      rwa [show (s.seg k).start = p from hp] at this
    have e2 : (s.seg q).height ε (p.time ε) = p.y := by
      have := height_start (ε := ε) (s.seg q)
      rwa [show (s.seg q).start = p from hqp] at this
    rw [e1, e2]
  rcases h1.lt_or_eq with hl | he
  · exact .inl (.inr ⟨hh, hl⟩)
  · right
    have hs : Same ε (s.seg k) (s.seg q) := same_of_at hh he
    have ho := hb.operands hkn hqn hne.symm hs (by rw [hp, ← hqp]; exact hw.lt q hqn)
      (by rw [hqp, ← hp]; exact hw.lt k hkn)
    have h2 := h2 he
    refine ⟨hs, ?_⟩
    revert ho h2
    cases (s.lefts k).fromTest <;> cases (s.lefts q).fromTest <;> simp

/-- What the handling of a left event does to the flags of the pieces, in short. -/
structure FlagsEffect (ε : K) (t s' : State K) (k : Nat) (l₁ l₂ : List Nat) : Prop where
  newOther : ∀ i, t.nextLeft ≤ i → i < s'.nextLeft → (s'.lefts i).otherInteriorToLeft = false
  newKind : ∀ i, t.nextLeft ≤ i → i < s'.nextLeft → (s'.lefts i).overlapKind = .none
  eff : (∃ w ∈ l₁ ++ l₂, Twins ε t w k ∧ (t.lefts w).fromTest ≠ (t.lefts k).fromTest ∧
      (∀ i < t.nextLeft, (s'.lefts i).overlapKind =
        if i = k ∨ i = w then kindOf t w k else (t.lefts i).overlapKind) ∧
      (∀ i < t.nextLeft, i ≠ k → i ≠ w →
        (s'.lefts i).otherInteriorToLeft = (t.lefts i).otherInteriorToLeft)) ∨
    ((∀ i ∈ l₁ ++ l₂, ¬ Twins ε t i k) ∧
      (∀ i < t.nextLeft, (s'.lefts i).overlapKind = (t.lefts i).overlapKind) ∧
      (∀ i < t.nextLeft, i ≠ k →
        (s'.lefts i).otherInteriorToLeft = (t.lefts i).otherInteriorToLeft))
  /-- the flag of the handled piece -/
  self : (s'.lefts k).otherInteriorToLeft =
    l₁.getLast?.elim (t.lefts k).otherInteriorToLeft (fun b => positionOf t b k)

theorem LeftFlags.effect (h : LeftFlags ε p t s' k l₁ l₂) (nd : (l₁ ++ k :: l₂).Nodup)
    (lt : ∀ i ∈ l₁ ++ k :: l₂, i < t.nextLeft) : FlagsEffect ε t s' k l₁ l₂ := by
  have nk : k ∉ l₁ ++ l₂ := (List.nodup_cons.mp (List.nodup_middle.mp nd)).1
  have hk : k < t.nextLeft := lt k (by simp)
  have lt' : ∀ i ∈ l₁ ++ l₂, i < t.nextLeft := fun i hi => lt i (by
    rw [List.mem_append] at hi
    simp only [List.mem_append, List.mem_cons]
    exact hi.imp id .inr)
  have n0 : (computePosition t l₁.getLast? k).nextLeft = t.nextLeft :=
    (computePosition_flags t l₁.getLast? k).shape.nextLeft
  cases h with
  | alone no kept =>
    refine ⟨fun i h1 h2 => kept.newOther i (n0 ▸ h1) h2, fun i h1 h2 => kept.newKind i (n0 ▸ h1) h2,
      .inr ⟨no, fun i hi => ?_, fun i hi hik => ?_⟩, ?_⟩
    · rw [kept.kind i (n0 ▸ hi), computePosition_kind]
    · rw [kept.other i (n0 ▸ hi), computePosition_other, if_neg hik]
    · rw [kept.other k (n0 ▸ hk), computePosition_other, if_pos rfl]
  | above a l₃ u eq twins hk' ha detects marked elems kept =>
    have ham : a ∈ l₁ ++ l₂ := by rw [eq]; simp
    have hak : a ≠ k := fun e => nk (e ▸ ham)
    have han := lt' a ham
    have nu : (computePosition u (some k) a).nextLeft = u.nextLeft :=
      (computePosition_flags u (some k) a).shape.nextLeft
    have nm : (setKind (computePosition t l₁.getLast? k) k a (kindOf t k a)).nextLeft = t.nextLeft :=
      (setKind_elem _ _ _ _).1.nextLeft.trans n0
    have le : t.nextLeft ≤ u.nextLeft := nm ▸ marked.le
    have kinds : ∀ i < u.nextLeft, (s'.lefts i).overlapKind = (u.lefts i).overlapKind := fun i hi => by
      rw [kept.kind i (nu ▸ hi), computePosition_kind]
    have others : ∀ i < u.nextLeft, i ≠ a →
        (s'.lefts i).otherInteriorToLeft = (u.lefts i).otherInteriorToLeft := fun i hi hia => by
      rw [kept.other i (nu ▸ hi), computePosition_other, if_neg hia]
    refine ⟨fun i h1 h2 => ?_, fun i h1 h2 => ?_, .inl ⟨a, ham, twins.symm, by rw [hk', ha]; simp,
      fun i hi => ?_, fun i hi hik hia => ?_⟩, ?_⟩
    · by_cases hiu : i < u.nextLeft
      · rw [others i hiu (by rintro rfl; exact absurd h1 (not_le.mpr han))]
        exact marked.newOther i (nm ▸ h1) hiu
      · exact kept.newOther i (nu ▸ not_lt.mp hiu) h2
    · by_cases hiu : i < u.nextLeft
      · rw [kinds i hiu]
        exact marked.newKind i (nm ▸ h1) hiu
      · exact kept.newKind i (nu ▸ not_lt.mp hiu) h2
    · rw [kinds i (hi.trans_le le), marked.kind i (nm ▸ hi), setKind_kind, computePosition_kind,
        kindOf_comm t k a]
    · rw [others i (hi.trans_le le) hia, marked.other i (nm ▸ hi), setKind_other,
        computePosition_other, if_neg hik]
    · rw [others k (hk.trans_le le) hak.symm, marked.other k (nm ▸ hk), setKind_other,
        computePosition_other, if_pos rfl]
  | below b l₃ t₁ u eq twins hb hk' cuts kept detects marked eq' =>
    have hbm : b ∈ l₁ ++ l₂ := by rw [eq]; simp
    have hbk : b ≠ k := fun e => nk (e ▸ hbm)
    have hbn := lt' b hbm
    have nm : (setKind t₁ b k (kindOf t b k)).nextLeft = t₁.nextLeft :=
      (setKind_elem _ _ _ _).1.nextLeft
    have le0 : t.nextLeft ≤ t₁.nextLeft := n0 ▸ kept.le
    have le1 : t₁.nextLeft ≤ u.nextLeft := nm ▸ marked.le
    have nu : s'.nextLeft = u.nextLeft := by
      rw [eq']; exact (computePosition_flags _ _ _).shape.nextLeft
    have kinds : ∀ i, (s'.lefts i).overlapKind = (u.lefts i).overlapKind := fun i => by
      rw [eq', computePosition_kind]
    have others : ∀ i, i ≠ b →
        (s'.lefts i).otherInteriorToLeft = (u.lefts i).otherInteriorToLeft := fun i hib => by
      rw [eq', computePosition_other, if_neg hib]
    refine ⟨fun i h1 h2 => ?_, fun i h1 h2 => ?_, .inl ⟨b, hbm, twins, by rw [hk', hb]; simp,
      fun i hi => ?_, fun i hi hik hib => ?_⟩, ?_⟩
    · have hib : i ≠ b := by rintro rfl; exact absurd h1 (not_le.mpr hbn)
      have hik : i ≠ k := by rintro rfl; exact absurd h1 (not_le.mpr hk)
      rw [others i hib]
      by_cases hi1 : i < t₁.nextLeft
      · rw [marked.other i (nm ▸ hi1), setKind_other]
        exact kept.newOther i (n0 ▸ h1) hi1
      · exact marked.newOther i (nm ▸ not_lt.mp hi1) (nu ▸ h2)
    · have hib : i ≠ b := by rintro rfl; exact absurd h1 (not_le.mpr hbn)
      have hik : i ≠ k := by rintro rfl; exact absurd h1 (not_le.mpr hk)
      rw [kinds i]
      by_cases hi1 : i < t₁.nextLeft
      · rw [marked.kind i (nm ▸ hi1), setKind_kind, if_neg (by rintro (h | h); exacts [hib h, hik h])]
        exact kept.newKind i (n0 ▸ h1) hi1
      · exact marked.newKind i (nm ▸ not_lt.mp hi1) (nu ▸ h2)
    · have hi1 := hi.trans_le le0
      rw [kinds i, marked.kind i (nm ▸ hi1), setKind_kind, kept.kind i (n0 ▸ hi), computePosition_kind]
      by_cases h : i = b ∨ i = k
      · rw [if_pos h, if_pos h.symm]
      · rw [if_neg h, if_neg fun h' => h h'.symm]
    · have hi1 := hi.trans_le le0
      rw [others i hib, marked.other i (nm ▸ hi1), setKind_other, kept.other i (n0 ▸ hi),
        computePosition_other, if_neg hik]
    · have hi1 := hk.trans_le le0
      rw [others k hbk.symm, marked.other k (nm ▸ hi1), setKind_other, kept.other k (n0 ▸ hk),
        computePosition_other, if_pos rfl]

/-- What is known about an iteration which handles a left event. -/
structure LeftStep (ε : K) (P : Finset (Point K)) (context : Context K) (s t s' : State K)
    (line : List Nat) (p : Point K) (k : Nat) (l₁ l₂ : List Nat) : Prop where
  moving : Moving ε P s line p
  peek : peek? context s = some (.left k)
  start : (s.lefts k).start = p
  shape : SameShape (popped s (.left k)) t
  other : ∀ i, (t.lefts i).otherInteriorToLeft = (s.lefts i).otherInteriorToLeft
  kind : ∀ i, (t.lefts i).overlapKind = (s.lefts i).overlapKind
  ins : Inserted ε P context s t line p k l₁ l₂
  flags : LeftFlags ε p t s' k l₁ l₂
  cuts : Cuts p (fun _ => True) t s'

section

variable {context : Context K} (h : LeftStep ε P context s t s' line p k l₁ l₂)

include h

theorem LeftStep.lt : k < t.nextLeft := h.ins.base.lt (by simp)

theorem LeftStep.seg (i : Nat) : t.seg i = s.seg i := h.shape.seg i

theorem LeftStep.twins {i j : Nat} (hi : i < t.nextLeft) (hj : j < t.nextLeft) :
    Twins ε s' i j ↔ Twins ε s i j := by
  rw [Elems.twins h.ins.base.clock h.cuts.elems hi hj]
  unfold Twins
  rw [h.seg, h.seg, h.shape.start, h.shape.start]; rfl

theorem LeftStep.fromTest {i : Nat} (hi : i < t.nextLeft) :
    (s'.lefts i).fromTest = (s.lefts i).fromTest :=
  (h.cuts.fromTest h.ins.base.clock.wf hi).trans (h.shape.fromTest i)

theorem LeftStep.interiorToLeft {i : Nat} (hi : i < t.nextLeft) :
    (s'.lefts i).interiorToLeft = (s.lefts i).interiorToLeft :=
  (Elems.interiorToLeft h.cuts.elems hi).trans (h.shape.interiorToLeft i)

theorem LeftStep.nextLeft : t.nextLeft = s.nextLeft := h.shape.nextLeft

theorem LeftStep.mem_queue {e : Ev} : e ∈ t.queue ↔ e ≠ .left k ∧ e ∈ s.queue := by
  rw [h.shape.queue]
  exact List.Nodup.mem_erase_iff h.moving.base.clock.wf.nodup

/-- The handled pieces. -/
theorem LeftStep.handled {i : Nat} (hi : i < s'.nextLeft) (hq : Ev.left i ∉ s'.queue) :
    i < t.nextLeft ∧ (i = k ∨ Ev.left i ∉ s.queue) := by
  have hv : t.Valid (.left i) := (h.cuts.elems.queue.2 (.left i) hi).resolve_right hq
  refine ⟨hv, ?_⟩
  by_contra hcon
  push Not at hcon
  exact hq (h.cuts.elems.queue.1 _ (h.mem_queue.mpr ⟨fun e => hcon.1 (Ev.left.inj e), hcon.2⟩))

theorem LeftStep.not_queued {i : Nat} (hi : i < t.nextLeft) (hq : i = k ∨ Ev.left i ∉ s.queue) :
    Ev.left i ∉ s'.queue := by
  refine Elems.not_mem h.cuts.elems (e := .left i) hi fun hm => ?_
  obtain ⟨h1, h2⟩ := h.mem_queue.mp hm
  rcases hq with rfl | hq
  · exact h1 rfl
  · exact hq h2

theorem LeftStep.queued {i : Nat} (hi : i < t.nextLeft) (hq : Ev.left i ∈ s'.queue) :
    i ≠ k ∧ Ev.left i ∈ s.queue := by
  by_contra hcon
  refine h.not_queued hi ?_ hq
  by_cases hik : i = k
  · exact .inl hik
  · exact .inr fun hm => hcon ⟨hik, hm⟩

/-- Handled pieces at the point are on the sweep line. -/
theorem LeftStep.mem {i : Nat} (hi : i < t.nextLeft) (hik : i ≠ k) (hq : Ev.left i ∉ s.queue)
    (e : (s.lefts i).start = p) : i ∈ l₁ ++ l₂ := by
  have hb := h.moving.base
  have hi' : i < s.nextLeft := h.nextLeft ▸ hi
  have := hb.mem_line hi' hq (e ▸ hb.clock.wf.lt i hi')
  rwa [h.ins.split] at this

theorem LeftStep.mem_line {i : Nat} (hi : i ∈ l₁ ++ l₂) : i < t.nextLeft ∧ i ≠ k ∧ Ev.left i ∉ s.queue := by
  have hi' := hi
  rw [← h.ins.split] at hi'
  obtain ⟨a1, a2, -⟩ := (h.moving.base.active i).mp hi'
  exact ⟨h.nextLeft ▸ a1, fun e => a2 (e ▸ peek?_mem h.peek), a2⟩

theorem LeftStep.twins_t {i j : Nat} : Twins ε t i j ↔ Twins ε s i j := by
  unfold Twins
  rw [h.seg, h.seg, h.shape.start, h.shape.start]; rfl

theorem LeftStep.effect : FlagsEffect ε t s' k l₁ l₂ :=
  h.flags.effect h.ins.base.nodup fun _ hi => h.ins.base.lt hi

theorem LeftStep.noTriple {i j m : Nat} (hi : i < t.nextLeft) (hj : j < t.nextLeft)
    (hm : m < t.nextLeft) (hij : i ≠ j) (him : i ≠ m) (hjm : j ≠ m) (h1 : Twins ε s i j)
    (h2 : Twins ε s i m) : False := by
  have e := h.nextLeft
  exact h.moving.base.noTriple (e ▸ hi) (e ▸ hj) (e ▸ hm) hij him hjm h1.1 h2.1 h1.2 h2.2

theorem LeftStep.kinds (hk : Kinds ε s) : Kinds ε s' := by
  have eff := h.effect
  have kn := h.lt
  have kindEq : ∀ {i j : Nat}, i < t.nextLeft → j < t.nextLeft → kindOf s' i j = kindOf s i j :=
    fun hi hj => kindOf_congr (h.interiorToLeft hi) (h.interiorToLeft hj)
  have kindT : ∀ i j, kindOf t i j = kindOf s i j := fun i j =>
    kindOf_congr (h.shape.interiorToLeft i) (h.shape.interiorToLeft j)
  refine ⟨fun i hq => ?_, fun i hi hne => ?_, fun i hi j hj hqi hqj hf htw => ?_⟩
  · by_cases hi : i < t.nextLeft
    · obtain ⟨hik, hqs⟩ := h.queued hi hq
      obtain ⟨o1, o2⟩ := hk.queued i hqs
      rcases eff.eff with ⟨w, hw, -, -, e1, e2⟩ | ⟨-, e1, e2⟩
      · have hiw : i ≠ w := fun e => (h.mem_line hw).2.2 (e ▸ hqs)
        rw [e2 i hi hik hiw, e1 i hi, if_neg (by rintro (e | e); exacts [hik e, hiw e]), h.other, h.kind]
        exact ⟨o1, o2⟩
      · rw [e2 i hi hik, e1 i hi, h.other, h.kind]
        exact ⟨o1, o2⟩
    · have hi' := (h.cuts.elems.wf h.ins.base.clock.wf).queueLeft i hq
      exact ⟨eff.newOther i (not_lt.mp hi) hi', eff.newKind i (not_lt.mp hi) hi'⟩
  · by_cases hi' : i < t.nextLeft
    swap
    · exact absurd (eff.newKind i (not_lt.mp hi') hi) hne
    have old : (s.lefts i).overlapKind ≠ .none → ∃ j < s'.nextLeft, Ev.left j ∉ s'.queue ∧
        (s'.lefts i).fromTest ≠ (s'.lefts j).fromTest ∧ Twins ε s' i j := by
      intro hne
      obtain ⟨j, hj, hqj, hf, htw⟩ := hk.twin i (h.nextLeft ▸ hi') hne
      have hj' : j < t.nextLeft := h.nextLeft ▸ hj
      refine ⟨j, hj'.trans_le h.cuts.elems.nextLeft_le.1, h.not_queued hj' (.inr hqj), ?_,
        (h.twins hi' hj').mpr htw⟩
      rw [h.fromTest hi', h.fromTest hj']; exact hf
    rcases eff.eff with ⟨w, hw, htw, hf, e1, -⟩ | ⟨-, e1, -⟩
    · obtain ⟨w1, w2, w3⟩ := h.mem_line hw
      have hf' : (s'.lefts w).fromTest ≠ (s'.lefts k).fromTest := by
        rw [h.fromTest w1, h.fromTest kn]
        rw [h.shape.fromTest, h.shape.fromTest] at hf
        exact hf
      have htw' : Twins ε s' w k := (h.twins w1 kn).mpr (h.twins_t.mp htw)
      by_cases hik : i = k
      · exact ⟨w, w1.trans_le h.cuts.elems.nextLeft_le.1, h.not_queued w1 (.inr w3),
          hik ▸ hf'.symm, hik ▸ htw'.symm⟩
      by_cases hiw : i = w
      · exact ⟨k, kn.trans_le h.cuts.elems.nextLeft_le.1, h.not_queued kn (.inl rfl),
          hiw ▸ hf', hiw ▸ htw'⟩
      rw [e1 i hi', if_neg (by rintro (e | e); exacts [hik e, hiw e]), h.kind] at hne
      exact old hne
    · rw [e1 i hi', h.kind] at hne
      exact old hne
  · obtain ⟨hi', hqi'⟩ := h.handled hi hqi
    obtain ⟨hj', hqj'⟩ := h.handled hj hqj
    rw [h.twins hi' hj'] at htw
    rw [kindEq hi' hj']
    rw [h.fromTest hi', h.fromTest hj'] at hf
    have hij : i ≠ j := fun e => hf (by rw [e])
    have pk : ∀ m, Twins ε s m k → (s.lefts m).start = p := fun m hm => hm.2.trans h.start
    rcases eff.eff with ⟨w, hw, hwk, -, e1, -⟩ | ⟨no, e1, -⟩
    · obtain ⟨w1, w2, w3⟩ := h.mem_line hw
      have hwk := h.twins_t.mp hwk
      rw [e1 i hi']
      by_cases hik : i = k
      · subst hik
        rw [if_pos (.inl rfl), kindT]
        by_cases hjw : j = w
        · rw [hjw]; exact kindOf_comm s w i
        · exact absurd (h.noTriple hi' hj' w1 hij w2.symm hjw htw hwk.symm) id
      · by_cases hiw : i = w
        · subst hiw
          rw [if_pos (.inr rfl), kindT]
          by_cases hjk : j = k
          · rw [hjk]
          · exact absurd (h.noTriple hi' hj' kn hij hik hjk htw hwk) id
        · rw [if_neg (by rintro (e | e); exacts [hik e, hiw e]), h.kind]
          have hjk : j ≠ k := by
            rintro rfl
            exact h.noTriple hj' hi' w1 hij.symm w2.symm hiw htw.symm hwk.symm
          exact hk.kind i (h.nextLeft ▸ hi') j (h.nextLeft ▸ hj') (hqi'.resolve_left hik)
            (hqj'.resolve_left hjk) hf htw
    · rw [e1 i hi', h.kind]
      have hik : i ≠ k := by
        rintro rfl
        have hji := hij.symm
        exact no j (h.mem hj' hji (hqj'.resolve_left hji) (pk j htw.symm))
          (h.twins_t.mpr htw.symm)
      have hjk : j ≠ k := by
        rintro rfl
        exact no i (h.mem hi' hij (hqi'.resolve_left hij) (pk i htw)) (h.twins_t.mpr htw)
      exact hk.kind i (h.nextLeft ▸ hi') j (h.nextLeft ▸ hj') (hqi'.resolve_left hik)
        (hqj'.resolve_left hjk) hf htw

/-- A piece of the same operand below does not go on as a queued one. -/
theorem LeftStep.not_goes (hc : context.Exact) {j : Nat} (hj : j ∈ l₁)
    (hf : (s.lefts j).fromTest = (s.lefts k).fromTest) : ¬ Goes ε s (s.seg j) p := by
  rintro ⟨q, hq, hqp, hs⟩
  have ha : After ε (p.time ε) (t.seg j) (t.seg k) := by
    refine ((List.pairwise_append.mp h.ins.sorted).2.2 j hj k (List.mem_cons_self ..)).resolve_left ?_
    rintro ⟨-, e1, e2⟩
    rw [h.shape.fromTest] at e1 e2
    exact Bool.noConfusion (e1.symm.trans (hf.trans e2))
  rw [h.seg, h.seg] at ha
  by_cases hqk : q = k
  · rw [hqk] at hs; exact ha.not_same hs
  rcases after_of_peek hc h.moving.base h.peek h.start hq hqp hqk with h1 | ⟨h1, -⟩
  · exact (ha.trans h1).not_same hs
  · exact ha.not_same (hs.trans h1.symm)

/-- The pieces through the point. -/
theorem LeftStep.thru {j : Nat} (hj : j ∈ l₁ ++ l₂) (h1 : (s.lefts j).start < p)
    (h2 : p ∈ (s.seg j).pts) : Goes ε s (s.seg j) p ∨
      ∀ e < s.nextLeft, (s.lefts e).start < p → p ∈ (s.seg e).pts →
        Same ε (s.seg j) (s.seg e) ∧ p < s.leftEnd e := by
  have hb := h.moving.base
  have ends : ∀ i ∈ line, p < s.leftEnd i := fun i hi => by
    rw [h.ins.split] at hi
    exact (h.ins.ends i hi).trans_eq (h.shape.leftEnd i)
  have hj' : j ∈ line := by rw [h.ins.split]; exact hj
  rcases h.moving.phase with hr | hl
  · exact hr.thru j hj' h2 (ends j hj')
  · exact absurd h2 (hl.apart hb h.moving.chain ends j hj' h1)

theorem LeftStep.allBefore {j : Nat} (hj : j ∈ l₁ ++ l₂) (h1 : (s.lefts j).start < p)
    (h2 : p ∈ (s.seg j).pts) {i : Nat} (hi : i ∈ l₁ ++ l₂) : (s.lefts i).start < p := by
  have := h.ins.only j hj ((h.shape.start j).trans_lt h1) (by rw [h.seg]; exact h2) i hi
  rwa [h.shape.start] at this

/-- The handled piece on the sweep line. -/
theorem LeftStep.spot {b : Bool} (side : (s.lefts k).fromTest = b)
    (low : ∀ q, Ev.left q ∈ s.queue → q ≠ k → (s.lefts q).start = p →
      (Same ε (s.seg k) (s.seg q) ∧ b = true) ∨ After ε (p.time ε) (s.seg k) (s.seg q)) :
    Spot ε P t l₁ l₂ p k b := by
  refine ⟨h.ins.base, h.ins.start, (h.shape.fromTest k).trans side, h.ins.sorted, h.ins.ends,
    fun q hq hqp => ?_⟩
  obtain ⟨q1, q2⟩ := h.mem_queue.mp hq
  rw [h.seg, h.seg]
  rw [h.shape.start] at hqp
  exact low q q2 (fun e => q1 (by rw [e])) hqp

/-- The twin on the sweep line. -/
theorem LeftStep.spot_twin {b : Bool} {u : State K} {I : Nat → Prop} {A B : List Nat} {m : Nat}
    (e : l₁ ++ k :: l₂ = A ++ m :: B) (mm : m ∈ l₁ ++ l₂) (hm : Twins ε s m k)
    (cuts : Cuts p I t u) (hI : ∀ i, I i → i ∈ l₁ ++ k :: l₂) (side : (s.lefts m).fromTest = b)
    (low : ∀ q, Ev.left q ∈ s.queue → q ≠ k → (s.lefts q).start = p →
      (Same ε (s.seg m) (s.seg q) ∧ b = true) ∨ After ε (p.time ε) (s.seg m) (s.seg q))
    (hI' : ∀ i, I i → i = m ∨ i = k ∨ After ε (p.time ε) (s.seg m) (s.seg i)) :
    Spot ε P u A B p m b := by
  have hb := h.ins.base
  have hw := hb.clock.wf
  have hbu : Base ε P u (l₁ ++ k :: l₂) p := hb.cuts (cuts.mono hI)
  obtain ⟨m1, m2, m3⟩ := h.mem_line mm
  have kn := h.lt
  have ms : (s.lefts m).start = p := hm.2.trans h.start
  have all : ∀ i ∈ l₁ ++ k :: l₂, p < u.leftEnd i := by
    intro i hi
    have hin := hb.lt hi
    rcases (hb.start_le hi).lt_or_eq with h1 | h1
    · refine lt_of_le_of_ne (hbu.le_end hi) fun e => ?_
      have hp : p ∈ (t.seg i).pts := cuts.elems.runs.seg_subset hw hin (by
        rw [e]; exact finish_mem _)
      have hik : i ≠ k := by
        rintro rfl
        exact h1.ne h.ins.start
      have hi' : i ∈ l₁ ++ l₂ := by
        rw [List.mem_append, List.mem_cons] at hi
        rw [List.mem_append]
        exact hi.imp id fun h => h.resolve_left hik
      rw [h.seg] at hp
      rw [h.shape.start] at h1
      exact (h.allBefore hi' h1 hp mm).ne ms
    · have := hbu.clock.wf.lt i (hbu.lt hi)
      rwa [cuts.start hw hin, h1] at this
  have same : ∀ i < t.nextLeft, Same ε (u.seg i) (s.seg i) := fun i hi => by
    rw [← h.seg i]; exact (hb.clock.same cuts.elems hi).symm
  refine ⟨by rw [← e]; exact hbu, ?_, ?_, ?_, fun i hi => all i ?_, fun q hq hqp => ?_⟩
  · rw [cuts.start hw m1, h.shape.start]; exact ms
  · rw [cuts.fromTest hw m1, h.shape.fromTest]; exact side
  · rw [← e]
    exact List.Pairwise.imp_of_mem (fun {x y} hx hy hxy =>
      hb.clock.aft cuts.elems (hb.lt hx) (hb.lt hy) hxy) h.ins.sorted
  · rw [e]
    rw [List.mem_append] at hi
    simp only [List.mem_append, List.mem_cons]
    exact hi.imp id .inr
  · by_cases hqn : q < t.nextLeft
    · have hqt : Ev.left q ∈ t.queue := by
        by_contra hn
        exact Elems.not_mem cuts.elems (e := .left q) hqn hn hq
      obtain ⟨q1, q2⟩ := h.mem_queue.mp hqt
      rw [cuts.start hw hqn, h.shape.start] at hqp
      rcases low q q2 (fun e => q1 (by rw [e])) hqp with ⟨l1, l2⟩ | l
      · exact .inl ⟨((same m m1).trans l1).trans (same q hqn).symm, l2⟩
      · exact .inr (l.congr (same m m1).symm (same q hqn).symm)
    · have hqu := hbu.clock.wf.queueLeft q hq
      obtain ⟨i, hi, hsub⟩ := cuts.inside hw (fun i hi => hb.lt (hI i hi)) (not_lt.mp hqn) hqu
      have hin := hb.lt (hI i hi)
      have hs : Same ε (t.seg i) (u.seg q) := same_of_subset (hb.clock.times hin)
        (hbu.clock.times hqu) (hsub (start_mem _)) (hsub (finish_mem _))
      rw [h.seg] at hs
      have triple : Same ε (s.seg m) (u.seg q) → False := by
        intro hmq
        have e1 : (u.lefts m).start = p := by rw [cuts.start hw m1, h.shape.start]; exact ms
        have e2 : (u.lefts k).start = p := by rw [cuts.start hw kn]; exact h.ins.start
        have le := cuts.elems.nextLeft_le.1
        refine hbu.noTriple (m1.trans_le le) (kn.trans_le le) hqu m2 (by rintro rfl; exact hqn m1)
          (by rintro rfl; exact hqn kn) ?_ ((same m m1).trans hmq) (e1.trans e2.symm)
          (e1.trans hqp.symm)
        exact ((same m m1).trans hm.1).trans (same k kn).symm
      rcases hI' i hi with rfl | rfl | ha
      · exact absurd hs triple
      · exact absurd (hm.1.trans hs) triple
      · exact .inr (ha.congr (same m m1).symm hs)

theorem LeftStep.sided (hc : context.Exact) {s₀ : State K} (c₀ : Clock ε P s₀) (hr : Runs s₀ t) {b : Bool}
    (hB : Bounds ε P s₀ (!b)) (hk : Kinds ε s) (hs : Sided ε P s₀ s b) : Sided ε P s₀ s' b := by
  intro i hi hq hf prov
  have hb := h.ins.base
  have hw := hb.clock.wf
  have kn := h.lt
  obtain ⟨hin, hq⟩ := h.handled hi hq
  rw [h.fromTest hin] at hf
  have hin' : i < s.nextLeft := h.nextLeft ▸ hin
  have same : ∀ i < t.nextLeft, Same ε (s.seg i) (s'.seg i) := fun i hi => by
    rw [← h.seg i]; exact hb.clock.same h.cuts.elems hi
  have start : ∀ i < t.nextLeft, (s'.lefts i).start = (s.lefts i).start := fun i hi =>
    (h.cuts.start hw hi).trans (h.shape.start i)
  -- the other queued pieces
  have prov' : b = false → ∀ q, Ev.left q ∈ s.queue → q ≠ k → ¬ Twins ε s i q := by
    intro e q hqs hqk ht
    have hqt := h.mem_queue.mpr ⟨fun e => hqk (Ev.left.inj e), hqs⟩
    exact prov e q (h.cuts.elems.queue.1 _ hqt) ((h.twins hin (hw.queueLeft q hqt)).mpr ht)
  -- the flag is not changed
  have unchanged : i ≠ k → (s'.lefts i).otherInteriorToLeft = (t.lefts i).otherInteriorToLeft →
      ¬ Twins ε s i k → FlagOK ε P s₀ s' i := by
    intro hik ho hn
    refine (hs i hin' (hq.resolve_left hik) hf fun e q hqs ht => ?_).congr (start i hin)
      (h.fromTest hin) (ho.trans (h.other i)) (same i hin)
    by_cases hqk : q = k
    · rw [hqk] at ht; exact hn ht
    · exact prov' e q hqs hqk ht
  have low := fun q hq hqk hqp => after_of_peek hc h.moving.base h.peek h.start (q := q) hq hqp hqk
  by_cases hik : i = k
  · -- the handled piece
    subst hik
    have sp : Spot ε P t l₁ l₂ p i b := h.spot hf fun q hq hqk hqp => by
      rcases low q hq hqk hqp with l | ⟨l1, l2, -⟩
      · exact .inr l
      · exact absurd ⟨l1, h.start.trans hqp.symm⟩ (prov' (hf.symm.trans l2) q hq hqk)
    obtain ⟨o, ho⟩ := hr.refines c₀.wf
    intro τ hτ
    rw [start i hin, h.start] at hτ
    have key := sp.seen c₀ ho hB hτ (fun j hj hfj => ?_) (fun j hj hfj j1 j2 => ?_)
    · rw [h.fromTest hin, hf, ← (same i hin).at, ← h.seg i, ← key, h.effect.self]
      cases l₁.getLast? with
      | none =>
        have : (t.lefts i).otherInteriorToLeft = false :=
          (h.other i).trans (hk.queued i (peek?_mem h.peek)).1
        change (t.lefts i).otherInteriorToLeft = true ↔ false = true
        rw [this]
      | some j => exact Iff.rfl
    · have hjl := List.mem_of_getLast? hj
      obtain ⟨j1, j2, j3⟩ := h.mem_line (List.mem_append_left _ hjl)
      rw [h.shape.fromTest] at hfj
      refine (hs j (h.nextLeft ▸ j1) j3 hfj fun e q hqs ht => ?_).congr (h.shape.start j)
        (h.shape.fromTest j) (h.other j) (by rw [h.seg]; exact .refl _)
      refine h.not_goes hc hjl (hfj.trans hf.symm) ⟨q, hqs, ?_, ht.1⟩
      refine le_antisymm ?_ (h.moving.base.queue _ hqs)
      rw [← ht.2]
      exact (h.shape.start j).symm.trans_le (hb.start_le (List.mem_append_left _ hjl))
    · have hjl := List.mem_of_getLast? hj
      have hjm : j ∈ l₁ ++ l₂ := List.mem_append_left _ hjl
      rw [h.shape.fromTest] at hfj
      rw [h.shape.start] at j1
      rw [h.seg] at j2
      refine ⟨fun e he hep => ?_, fun e he e1 e2 => ?_⟩
      · rw [h.shape.start] at hep
        exact (h.allBefore hjm j1 j2 (List.mem_append_left _ he)).ne hep
      · rw [h.shape.start] at e1
        rw [h.seg] at e2
        rw [h.seg, h.seg, h.shape.leftEnd]
        exact ((h.thru hjm j1 j2).resolve_left (h.not_goes hc hjl (hfj.trans hf.symm))) e
          (h.nextLeft ▸ he) e1 e2
  have hqs := hq.resolve_left hik
  have n0 : (computePosition t l₁.getLast? k).nextLeft = t.nextLeft :=
    (computePosition_flags t l₁.getLast? k).shape.nextLeft
  have f0 := computePosition_flags t l₁.getLast? k
  rcases h.flags with ⟨no, kept⟩ | ⟨a, l₃, u, eq, tw, fk, fa, det, marked, elems, kept⟩ |
    ⟨w, l₃, t₁, u, eq, tw, fw, fk, cuts, kept, det, marked, eq'⟩
  · -- there is no twin
    refine unchanged hik ?_ fun ht => ?_
    · rw [kept.other i (n0 ▸ hin), computePosition_other, if_neg hik]
    · exact no i (h.mem hin hik hqs (ht.2.trans h.start)) (h.twins_t.mpr ht)
  · -- the twin is above
    have ham : a ∈ l₁ ++ l₂ := by rw [eq]; simp
    obtain ⟨a1, a2, a3⟩ := h.mem_line ham
    have tw' : Twins ε s a k := (h.twins_t.mp tw).symm
    by_cases hia : i = a
    swap
    · refine unchanged hik ?_ fun ht => h.noTriple kn hin a1 (Ne.symm hik) a2.symm hia ht.symm tw'.symm
      have eff := h.effect
      rcases eff.eff with ⟨w, hw, hwk, -, -, e2⟩ | ⟨no, -, -⟩
      · obtain ⟨w1, w2, w3⟩ := h.mem_line hw
        have hwa : w = a := by
          by_contra hne
          exact h.noTriple kn w1 a1 w2.symm a2.symm hne (h.twins_t.mp hwk).symm tw'.symm
        exact e2 i hin hik (hwa ▸ hia)
      · exact absurd tw.symm (no a ham)
    · subst hia
      replace fk : (s.lefts k).fromTest = true := (h.shape.fromTest k).symm.trans fk
      replace fa : (s.lefts i).fromTest = false := (h.shape.fromTest i).symm.trans fa
      have bf : b = false := hf.symm.trans fa
      subst bf
      have cuts : Cuts p (fun j => j = k ∨ j = i) t u := ((Cuts.refl t).flags f0).trans det.cuts
      have eq2 : l₁ ++ k :: l₂ = (l₁ ++ [k]) ++ i :: l₃ := by rw [eq]; simp
      have sp : Spot ε P u (l₁ ++ [k]) l₃ p i false := by
        refine h.spot_twin eq2 ham tw' cuts ?_ fa (fun q hq hqk hqp => ?_) ?_
        · rintro j (rfl | rfl)
          · simp
          · rw [eq]; simp
        · rcases low q hq hqk hqp with l | ⟨-, l2, -⟩
          · exact .inr (l.congr tw'.1.symm (.refl _))
          · rw [fk] at l2; cases l2
        · rintro j (rfl | rfl)
          · exact .inr (.inl rfl)
          · exact .inl rfl
      obtain ⟨o, ho⟩ := (hr.trans cuts.elems.runs).refines c₀.wf
      have le : t.nextLeft ≤ u.nextLeft := cuts.elems.nextLeft_le.1
      have nu : (computePosition u (some k) i).nextLeft = u.nextLeft :=
        (computePosition_flags u (some k) i).shape.nextLeft
      have fku : (u.lefts k).fromTest = true := (cuts.fromTest hw kn).trans ((h.shape.fromTest k).trans fk)
      have fiu : (u.lefts i).fromTest = false := (cuts.fromTest hw hin).trans ((h.shape.fromTest i).trans fa)
      intro τ hτ
      rw [start i hin, tw'.2, h.start] at hτ
      have key := sp.other hτ c₀ ho hB (j := k) (by simp) fku
      have su : Same ε (s'.seg i) (u.seg i) :=
        ((same i hin).symm.trans (by rw [← h.seg i]; exact .refl _)).trans (hb.clock.same cuts.elems hin)
      rw [h.fromTest hin, fa, su.at, ← key, kept.other i (nu.symm ▸ hin.trans_le le), computePosition_other,
        if_pos rfl]
      change positionOf u k i = true ↔ _
      unfold positionOf
      rw [if_neg (by rw [fku, fiu]; simp)]
  · -- the twin is below
    have hwm : w ∈ l₁ ++ l₂ := by rw [eq]; simp
    obtain ⟨w1, w2, w3⟩ := h.mem_line hwm
    have tw' : Twins ε s w k := h.twins_t.mp tw
    by_cases hiw : i = w
    swap
    · refine unchanged hik ?_ fun ht => h.noTriple kn hin w1 (Ne.symm hik) w2.symm hiw ht.symm tw'.symm
      have eff := h.effect
      rcases eff.eff with ⟨v, hv, hvk, -, -, e2⟩ | ⟨no, -, -⟩
      · obtain ⟨v1, v2, v3⟩ := h.mem_line hv
        have hvw : v = w := by
          by_contra hne
          exact h.noTriple kn v1 w1 v2.symm w2.symm hne (h.twins_t.mp hvk).symm tw'.symm
        exact e2 i hin hik (hvw ▸ hiw)
      · exact absurd tw (no w hwm)
    · subst hiw
      replace fw : (s.lefts i).fromTest = true := (h.shape.fromTest i).symm.trans fw
      have bt : b = true := hf.symm.trans fw
      subst bt
      have old : FlagOK ε P s₀ s i := hs i hin' hqs hf fun e => Bool.noConfusion e
      have le0 : t.nextLeft ≤ t₁.nextLeft := n0 ▸ kept.le
      have nm : (setKind t₁ i k (kindOf t i k)).nextLeft = t₁.nextLeft :=
        (setKind_elem _ _ _ _).1.nextLeft
      have others : ∀ j < t.nextLeft, j ≠ k →
          (u.lefts j).otherInteriorToLeft = (s.lefts j).otherInteriorToLeft := fun j hj hjk => by
        rw [marked.other j (nm.symm ▸ hj.trans_le le0), setKind_other, kept.other j (n0.symm ▸ hj),
          computePosition_other, if_neg hjk, h.other]
      have cuts' : Cuts p (fun j => (j = k ∨ l₂.head? = some j) ∨ (j = i ∨ j = k)) t u :=
        (((Cuts.refl t).flags f0).trans (cuts.mono fun _ h => .inl h)).trans
          (det.cuts.mono fun _ h => .inr h)
      have eq2 : l₁ ++ k :: l₂ = l₃ ++ i :: (k :: l₂) := by rw [eq]; simp
      have srt := h.ins.sorted
      rw [eq2] at srt
      have srt := List.pairwise_cons.mp (List.pairwise_append.mp srt).2.1
      have sp : Spot ε P u l₃ (k :: l₂) p i true := by
        refine h.spot_twin eq2 hwm tw' cuts' ?_ fw (fun q hq hqk hqp => ?_) ?_
        · rintro j ((rfl | hj) | rfl | rfl)
          · simp
          · have := List.mem_of_mem_head? hj
            simp [this]
          · rw [eq]; simp
          · simp
        · rcases low q hq hqk hqp with l | ⟨l1, -, -⟩
          · exact .inr (l.congr tw'.1.symm (.refl _))
          · exact .inl ⟨tw'.1.trans l1, rfl⟩
        · rintro j ((rfl | hj) | rfl | rfl)
          · exact .inr (.inl rfl)
          · have hj' := List.mem_of_mem_head? hj
            have b1 := srt.1 k (List.mem_cons_self ..)
            have b2 := (List.pairwise_cons.mp srt.2).1 j hj'
            have := Aft.strict b1 b2
            rw [h.seg, h.seg] at this
            exact .inr (.inr this)
          · exact .inl rfl
          · exact .inr (.inl rfl)
      obtain ⟨o, ho⟩ := (hr.trans cuts'.elems.runs).refines c₀.wf
      have su : ∀ j < t.nextLeft, Same ε (s.seg j) (u.seg j) := fun j hj => by
        rw [← h.seg j]; exact hb.clock.same cuts'.elems hj
      have stu : ∀ j < t.nextLeft, (u.lefts j).start = (s.lefts j).start := fun j hj =>
        (cuts'.start hw hj).trans (h.shape.start j)
      have fu : ∀ j < t.nextLeft, (u.lefts j).fromTest = (s.lefts j).fromTest := fun j hj =>
        (cuts'.fromTest hw hj).trans (h.shape.fromTest j)
      have hval : (s'.lefts i).otherInteriorToLeft =
          l₃.getLast?.elim (u.lefts i).otherInteriorToLeft (fun j => positionOf u j i) := by
        rw [eq', computePosition_other, if_pos rfl]
      cases hl : l₃.getLast? with
      | none =>
        rw [hl] at hval
        exact old.congr (start i hin) (h.fromTest hin) (hval.trans (others i hin hik)) (same i hin)
      | some j =>
        intro τ hτ
        rw [start i hin, tw'.2, h.start] at hτ
        have key := sp.seen c₀ ho hB hτ (fun j hj hfj => ?_) (fun j hj hfj j1 j2 => ?_)
        · rw [h.fromTest hin, hf, ← (same i hin).at, (su i hin).at, ← key, hval, hl]
          exact Iff.rfl
        · have hjl : j ∈ l₁ ++ l₂ := by
            have := List.mem_of_getLast? hj
            rw [eq]; simp [this]
          obtain ⟨j1, j2, j3⟩ := h.mem_line hjl
          rw [fu j j1] at hfj
          exact (hs j (h.nextLeft ▸ j1) j3 hfj fun e => Bool.noConfusion e).congr (stu j j1) (fu j j1)
            (others j j1 j2) (su j j1)
        · have hjl : j ∈ l₁ ++ l₂ := by
            have := List.mem_of_getLast? hj
            rw [eq]; simp [this]
          obtain ⟨k1, -, -⟩ := h.mem_line hjl
          rw [stu j k1] at j1
          have j2 := cuts'.elems.runs.seg_subset hw k1 j2
          rw [h.seg] at j2
          exact absurd (h.allBefore hjl j1 j2 hwm) (by rw [tw'.2, h.start]; exact lt_irrefl _)

end

end

end Orient.eventsQueue
