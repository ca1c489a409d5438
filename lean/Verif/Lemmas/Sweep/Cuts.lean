import Verif.Lemmas.Sweep.Terminate

/-! What the handling of an event does: divisions of neighbours on the sweep line at common points. -/

set_option linter.unusedSectionVars false

namespace Orient.eventsQueue

variable {K : Type} [Field K] [LinearOrder K] [IsStrictOrderedRing K]

open Segment State

/-- Only flags other than relations differ. -/
structure Flags (s s' : State K) : Prop where
  shape : SameShape s s'
  relation : ∀ i, (s'.lefts i).relation = (s.lefts i).relation

theorem Flags.refl (s : State K) : Flags s s := ⟨.refl s, fun _ => rfl⟩

theorem Flags.trans {s t u : State K} (h : Flags s t) (h' : Flags t u) : Flags s u :=
  ⟨sameShape_trans h.shape h'.shape, fun i => (h'.relation i).trans (h.relation i)⟩

/-- What the detection of an intersection does, apart from flags. -/
inductive DetectCore (context : Context K) (a b : Nat) (s : State K) : State K → Prop
  | single (h : context.segmentsRelation (s.seg a) (s.seg b) = .touch ∨
      context.segmentsRelation (s.seg a) (s.seg b) = .cross) :
      DetectCore context a b s
        (divideAt s a b (context.segmentsIntersection (s.seg a) (s.seg b)))
  | overlap (h : ¬ (context.segmentsRelation (s.seg a) (s.seg b) = .touch ∨
      context.segmentsRelation (s.seg a) (s.seg b) = .cross))
      (h' : context.segmentsRelation (s.seg a) (s.seg b) ≠ .disjoint)
      (hf : (s.lefts b).fromTest ≠ (s.lefts a).fromTest) :
      DetectCore context a b s (divideOverlapping context s a b)
  | apart (h : context.segmentsRelation (s.seg a) (s.seg b) = .disjoint) : DetectCore context a b s s

/-- What the detection of an intersection does. -/
def DetectRel (context : Context K) (s : State K) (a b : Nat) (s' : State K) : Prop :=
  ∃ u v, Flags s u ∧ DetectCore context a b u v ∧ Flags v s'

theorem DetectRel.flags {context : Context K} {s s' s'' : State K} {a b : Nat}
    (h : DetectRel context s a b s') (hf : Flags s' s'') : DetectRel context s a b s'' := by
  obtain ⟨u, v, h1, h2, h3⟩ := h
  exact ⟨u, v, h1, h2, h3.trans hf⟩

theorem detectLinear_rel {context : Context K} {s s' : State K} {a b : Nat}
    (h : detectIntersectionLinear context s a b = .ok s') : DetectRel context s a b s' := by
  unfold detectIntersectionLinear at h
  simp only at h
  split_ifs at h with h1 h2 h3
  · obtain rfl := Except.ok.inj h
    exact ⟨s, _, .refl s, .single h1, .refl _⟩
  · obtain rfl := Except.ok.inj h
    exact ⟨s, _, .refl s, .overlap h1 h2 h3, .refl _⟩
  · obtain rfl := Except.ok.inj h
    push Not at h2
    exact ⟨s, _, .refl s, .apart h2, .refl _⟩

theorem detectCompound_rel {context : Context K} {s : State K} {r : State K × Bool} {a b : Nat}
    (h : detectIntersectionCompound context s a b = .ok r) : DetectRel context s a b r.1 := by
  rw [detectIntersectionCompound_eq] at h
  split_ifs at h with h1 h2 h3 h4
  · obtain rfl := Except.ok.inj h
    exact ⟨s, _, .refl s, .single h1, .refl _⟩
  · obtain rfl := Except.ok.inj h
    obtain ⟨k1, k2⟩ := setKind_elem s a b (kindOf s a b)
    refine ⟨_, _, ⟨k1, k2⟩, .overlap ?_ ?_ ?_, .refl _⟩
    · rw [k1.seg, k1.seg]; exact h1
    · rw [k1.seg, k1.seg]; exact h2
    · rw [k1.fromTest, k1.fromTest]; exact h3
  · obtain rfl := Except.ok.inj h
    exact ⟨s, _, .refl s, .overlap h1 h2 h3, .refl _⟩
  · obtain rfl := Except.ok.inj h
    push Not at h2
    exact ⟨s, _, .refl s, .apart h2, .refl _⟩

theorem computePosition_flags (s : State K) (below : Option Nat) (i : Nat) :
    Flags s (computePosition s below i) :=
  ⟨(computePosition_elem s below i).1, (computePosition_elem s below i).2⟩

/-- The check of an event against a neighbour, if there is one. -/
def CheckAbove (context : Context K) (s : State K) (i : Nat) (above : Option Nat) (s' : State K) :
    Prop :=
  match above with
  | some a => DetectRel context s i a s'
  | none => Flags s s'

/-- The check of an event against a neighbour, if there is one. -/
def CheckBelow (context : Context K) (s : State K) (below : Option Nat) (i : Nat) (s' : State K) :
    Prop :=
  match below with
  | some b => DetectRel context s b i s'
  | none => Flags s s'

/-- The handling of a left event. -/
theorem handle_left_ok {linear : Bool} {context : Context K} {s s' : State K} {line line' : List Nat}
    {i : Nat} (h : handle linear context s line (.left i) = .ok (s', line')) :
    line' = sweepLine.add context s i line ∧ ∃ s₀ s₁, Flags s s₀ ∧
      CheckAbove context s₀ i (sweepLine.above context s i line') s₁ ∧
      CheckBelow context s₁ (sweepLine.below context s i line') i s' := by
  cases linear with
  | true =>
    change handleLinear context s line (.left i) = _ at h
    rw [handleLinear_left] at h
    cases h1 : checkAboveLinear context s i
        (sweepLine.above context s i (sweepLine.add context s i line)) with
    | error e => rw [h1] at h; simp [Except.bind] at h
    | ok s₁ =>
      rw [h1] at h
      simp only [Except.bind] at h
      cases h2 : checkBelowLinear context s₁
          (sweepLine.below context s i (sweepLine.add context s i line)) i with
      | error e => rw [h2] at h; simp at h
      | ok s₂ =>
        rw [h2] at h
        simp only [Except.ok.injEq, Prod.mk.injEq] at h
        obtain ⟨rfl, rfl⟩ := h
        refine ⟨rfl, s, s₁, .refl s, ?_, ?_⟩
        · unfold checkAboveLinear at h1
          unfold CheckAbove
          split at h1
          · next ha => rw [ha]; exact detectLinear_rel h1
          · next ha => rw [ha]; obtain rfl := Except.ok.inj h1; exact .refl _
        · unfold checkBelowLinear at h2
          unfold CheckBelow
          split at h2
          · next ha => rw [ha]; exact detectLinear_rel h2
          · next ha => rw [ha]; obtain rfl := Except.ok.inj h2; exact .refl _
  | false =>
    change handleCompound context s line (.left i) = _ at h
    simp only [handleCompound, bind, Except.bind, pure, Except.pure] at h
    cases h1 : checkAbove context
        (computePosition s (sweepLine.below context s i (sweepLine.add context s i line)) i) i
        (sweepLine.above context s i (sweepLine.add context s i line)) with
    | error e => rw [h1] at h; simp at h
    | ok s₁ =>
      rw [h1] at h
      simp only at h
      cases h2 : checkBelow context s₁ (sweepLine.add context s i line)
          (sweepLine.below context s i (sweepLine.add context s i line)) i with
      | error e => rw [h2] at h; simp at h
      | ok s₂ =>
        rw [h2] at h
        simp only [Except.ok.injEq, Prod.mk.injEq] at h
        obtain ⟨rfl, rfl⟩ := h
        refine ⟨rfl, _, s₁, computePosition_flags s
          (sweepLine.below context s i (sweepLine.add context s i line)) i, ?_, ?_⟩
        · unfold checkAbove at h1
          unfold CheckAbove
          split at h1
          · next ha => rw [ha]; obtain rfl := Except.ok.inj h1; exact .refl _
          · next ha =>
            rw [ha]
            simp only [bind, Except.bind, pure, Except.pure] at h1
            split at h1
            · cases h1
            · next hd =>
              obtain rfl := Except.ok.inj h1
              refine (detectCompound_rel hd).flags ?_
              split
              · exact computePosition_flags _ _ _
              · exact .refl _
        · unfold checkBelow at h2
          unfold CheckBelow
          split at h2
          · next ha => rw [ha]; obtain rfl := Except.ok.inj h2; exact .refl _
          · next ha =>
            rw [ha]
            simp only [bind, Except.bind, pure, Except.pure] at h2
            split at h2
            · cases h2
            · next hd =>
              obtain rfl := Except.ok.inj h2
              refine (detectCompound_rel hd).flags ?_
              split
              · exact computePosition_flags _ _ _
              · exact .refl _

/-- The handling of a right event. -/
theorem handle_right_ok {linear : Bool} {context : Context K} {s s' : State K}
    {line line' : List Nat} {r : Nat}
    (h : handle linear context s line (.right r) = .ok (s', line'))
    (hc : sweepLine.contains context s (s.rights r).left line = true) :
    line' = sweepLine.remove context s (s.rights r).left line ∧
      ((∃ a b, sweepLine.above context s (s.rights r).left line = some a ∧
        sweepLine.below context s (s.rights r).left line = some b ∧ DetectRel context s b a s') ∨
      ((sweepLine.above context s (s.rights r).left line = none ∨
        sweepLine.below context s (s.rights r).left line = none) ∧ Flags s s')) := by
  cases linear with
  | true =>
    change handleLinear context s line (.right r) = _ at h
    simp only [handleLinear, hc, if_true, bind, Except.bind, pure, Except.pure] at h
    split at h
    · next a b ha hb =>
      split at h
      · cases h
      · next hd =>
        simp only [Except.ok.injEq, Prod.mk.injEq] at h
        obtain ⟨rfl, rfl⟩ := h
        exact ⟨rfl, .inl ⟨a, b, ha, hb, detectLinear_rel hd⟩⟩
    · next hn =>
      simp only [Except.ok.injEq, Prod.mk.injEq] at h
      obtain ⟨rfl, rfl⟩ := h
      refine ⟨rfl, .inr ⟨?_, .refl _⟩⟩
      by_contra hcon
      push Not at hcon
      obtain ⟨a, ha⟩ := Option.ne_none_iff_exists'.mp hcon.1
      obtain ⟨b, hb⟩ := Option.ne_none_iff_exists'.mp hcon.2
      exact hn a b ha hb
  | false =>
    change handleCompound context s line (.right r) = _ at h
    simp only [handleCompound, hc, if_true, bind, Except.bind, pure, Except.pure] at h
    split at h
    · next a b ha hb =>
      split at h
      · cases h
      · next hd =>
        simp only [Except.ok.injEq, Prod.mk.injEq] at h
        obtain ⟨rfl, rfl⟩ := h
        exact ⟨rfl, .inl ⟨a, b, ha, hb, detectCompound_rel hd⟩⟩
    · next hn =>
      simp only [Except.ok.injEq, Prod.mk.injEq] at h
      obtain ⟨rfl, rfl⟩ := h
      refine ⟨rfl, .inr ⟨?_, .refl _⟩⟩
      by_contra hcon
      push Not at hcon
      obtain ⟨a, ha⟩ := Option.ne_none_iff_exists'.mp hcon.1
      obtain ⟨b, hb⟩ := Option.ne_none_iff_exists'.mp hcon.2
      exact hn a b ha hb

/-! ### divisions -/

/-- Flags and divisions of the chosen events at points which are not before `p`. -/
inductive Cuts (p : Point K) (I : Nat → Prop) : State K → State K → Prop
  | refl (s : State K) : Cuts p I s s
  | flags {s t u : State K} : Cuts p I s t → Flags t u → Cuts p I s u
  | cut {s t : State K} (i : Nat) (x : Point K) : Cuts p I s t → I i → i < t.nextLeft →
      (t.seg i).Inner x →
      (∃ j < t.nextLeft, x ∈ (t.seg j).pts ∧
        (¬ (t.seg i).Collinear (t.seg j) ∨ (t.seg j).IsEndpoint x)) →
      p ≤ x → Cuts p I s (t.divide i x)

theorem Cuts.trans {p : Point K} {I : Nat → Prop} {s t u : State K} (h : Cuts p I s t)
    (h' : Cuts p I t u) : Cuts p I s u := by
  induction h' with
  | refl => exact h
  | flags _ h2 ih => exact ih.flags h2
  | cut i x _ h1 h2 h3 h4 h5 ih => exact ih.cut i x h1 h2 h3 h4 h5

theorem Cuts.elems {p : Point K} {I : Nat → Prop} {s t : State K} (h : Cuts p I s t) : Elems s t := by
  induction h with
  | refl => exact .refl _
  | flags _ h2 ih => exact ih.tail (.flags h2.shape h2.relation)
  | cut i x _ _ h2 h3 h4 _ ih => exact ih.tail (.divide i x h2 h3 h4)

theorem Cuts.mono {p : Point K} {I J : Nat → Prop} {s t : State K} (h : Cuts p I s t)
    (hIJ : ∀ i, I i → J i) : Cuts p J s t := by
  induction h with
  | refl => exact .refl _
  | flags _ h2 ih => exact ih.flags h2
  | cut i x _ h1 h2 h3 h4 h5 ih => exact ih.cut i x (hIJ i h1) h2 h3 h4 h5

theorem Cuts.seg {p : Point K} {I : Nat → Prop} {s t : State K} (h : Cuts p I s t) (hw : s.WF)
    {i : Nat} (hi : i < s.nextLeft) (hI : ¬ I i) : t.seg i = s.seg i := by
  induction h with
  | refl => rfl
  | flags _ h2 ih => rw [h2.shape.seg]; exact ih
  | cut j x h0 h1 h2 _ _ _ ih =>
    rw [divide_seg_other (h0.elems.wf hw) h2 x (lt_of_lt_of_le hi h0.elems.nextLeft_le.1)
      (by rintro rfl; exact hI h1)]
    exact ih

theorem Cuts.start {p : Point K} {I : Nat → Prop} {s t : State K} (h : Cuts p I s t) (hw : s.WF)
    {i : Nat} (hi : i < s.nextLeft) : (t.lefts i).start = (s.lefts i).start :=
  (h.elems.evStart hw (e := .left i) hi).1

theorem Cuts.fromTest {p : Point K} {I : Nat → Prop} {s t : State K} (h : Cuts p I s t) (hw : s.WF)
    {i : Nat} (hi : i < s.nextLeft) : (t.lefts i).fromTest = (s.lefts i).fromTest :=
  (h.elems.evStart hw (e := .left i) hi).2

/-- An end which has changed is the start of a queued piece. -/
theorem Cuts.tail {p : Point K} {I : Nat → Prop} {s t : State K} (h : Cuts p I s t) (hw : s.WF)
    {i : Nat} (hi : i < s.nextLeft) :
    t.leftEnd i = s.leftEnd i ∨ (t.leftEnd i < s.leftEnd i ∧ p ≤ t.leftEnd i ∧
      ∃ k, Ev.left k ∈ t.queue ∧ (t.lefts k).start = t.leftEnd i ∧
        (t.seg k).pts ⊆ (s.seg i).pts) := by
  induction h with
  | refl => exact .inl rfl
  | flags _ h2 ih =>
    rw [h2.shape.leftEnd]
    rcases ih with ih | ⟨h1, h3, k, hk, hk', hk''⟩
    · exact .inl ih
    · exact .inr ⟨h1, h3, k, by rw [h2.shape.queue]; exact hk, by rw [h2.shape.start]; exact hk',
        by rw [h2.shape.seg]; exact hk''⟩
  | cut j x h0 h1 h2 h3 h4 h5 ih =>
    have hw' := h0.elems.wf hw
    have hi' := lt_of_lt_of_le hi h0.elems.nextLeft_le.1
    by_cases hij : i = j
    · subst hij
      have hlt := ((hw'.inner_iff h2).mp h3).2.2
      rw [divide_leftEnd_self hw' h2 x]
      refine .inr ⟨?_, h5, _, .tail _ (.head _), by
        rw [divide_lefts_new hw' h2 x], ?_⟩
      · rcases ih with ih | ih
        · rw [← ih]; exact hlt
        · exact hlt.trans ih.1
      · rw [divide_seg_new hw' h2 x]
        exact (Segment.pts_subset h3.1 (finish_mem _)).trans (h0.elems.runs.seg_subset hw hi)
    · rw [divide_leftEnd_other hw' h2 x hi' hij]
      rcases ih with ih | ⟨h6, h7, k, hk, hk', hk''⟩
      · exact .inl ih
      · refine .inr ⟨h6, h7, k, by simp [State.divide, hk], ?_, ?_⟩
        · rw [divide_start hw' h2 x (hw'.queueLeft k hk)]
          exact hk'
        · exact ((Elem.divide j x h2 h3 h4).elems.runs.seg_subset hw' (hw'.queueLeft k hk)).trans hk''

/-- A piece which has appeared is queued and does not start before the point. -/
theorem Cuts.new {p : Point K} {I : Nat → Prop} {s t : State K} (h : Cuts p I s t) (hw : s.WF)
    {i : Nat} (hi : s.nextLeft ≤ i) (hi' : i < t.nextLeft) :
    Ev.left i ∈ t.queue ∧ p ≤ (t.lefts i).start := by
  induction h with
  | refl => exact absurd hi' (not_lt.mpr hi)
  | flags _ h2 ih =>
    rw [h2.shape.queue, h2.shape.start]
    exact ih (by rw [← h2.shape.nextLeft]; exact hi')
  | @cut t' j x h0 h1 h2 h3 h4 h5 ih =>
    have hw' := h0.elems.wf hw
    rcases Nat.lt_succ_iff_lt_or_eq.mp hi' with h | h
    · refine ⟨?_, ?_⟩
      · have := (ih h).1
        simp [State.divide, this]
      · rw [divide_start hw' h2 x h]
        exact (ih h).2
    · subst h
      refine ⟨.tail _ (.head _), ?_⟩
      rw [divide_lefts_new hw' h2 x]
      exact h5

/-- What is known after the intersection of two segments has been handled. -/
structure Detects (p : Point K) (s : State K) (a b : Nat) (s' : State K) : Prop where
  cuts : Cuts p (fun i => i = a ∨ i = b) s s'
  /-- changed ends are common points -/
  first : s'.leftEnd a = s.leftEnd a ∨
    ((s.seg a).Inner (s'.leftEnd a) ∧ s'.leftEnd a ∈ (s.seg b).pts)
  second : s'.leftEnd b = s.leftEnd b ∨
    ((s.seg b).Inner (s'.leftEnd b) ∧ s'.leftEnd b ∈ (s.seg a).pts)
  cross : ¬ (s.seg a).Collinear (s.seg b) → ∀ x ∈ (s'.seg a).pts, x ∈ (s'.seg b).pts →
    (s'.seg a).IsEndpoint x ∧ (s'.seg b).IsEndpoint x
  equal : Overlapping s a b → (s.lefts a).start = (s.lefts b).start →
    s'.leftEnd a = s'.leftEnd b
  less : Overlapping s a b → (s.lefts a).start < (s.lefts b).start → s'.leftEnd a = (s.lefts b).start
  greater : Overlapping s a b → (s.lefts b).start < (s.lefts a).start →
    s'.leftEnd b = (s.lefts a).start

theorem divideAt_detects {s : State K} (h : s.WF) {a b : Nat} (ha : a < s.nextLeft)
    (hb : b < s.nextLeft) {p x : Point K} (hx : (s.seg a).pts ∩ (s.seg b).pts = {x})
    (hp : (s.seg a).Inner x ∨ (s.seg b).Inner x → p ≤ x) :
    Detects p s a b (divideAt s a b x) := by
  have hmem : x ∈ (s.seg a).pts ∩ (s.seg b).pts := by rw [hx]; rfl
  have hnt : ¬ ((s.seg a).pts ∩ (s.seg b).pts).Nontrivial := by
    rw [hx]; exact Set.not_nontrivial_singleton
  have hab : a ≠ b := by
    rintro rfl
    rw [Set.inter_self] at hnt
    exact hnt (pts_nontrivial (h.nondegenerate ha))
  have hno : ¬ Overlapping s a b := fun ho => hnt ((overlapping_iff h ha hb).mpr ho)
  have notinner : ∀ i, ¬ (x ≠ (s.lefts i).start ∧ x ≠ s.leftEnd i) → (s.seg i).IsEndpoint x := by
    intro i hn
    by_contra hn'
    exact hn ⟨fun e => hn' (.inl e), fun e => hn' (.inr e)⟩
  have inner : ∀ i, x ∈ (s.seg i).pts → (x ≠ (s.lefts i).start ∧ x ≠ s.leftEnd i) →
      (s.seg i).Inner x := by
    rintro i hi ⟨h1, h2⟩
    exact ⟨hi, by rintro (e | e); exacts [h1 e, h2 e]⟩
  have sub : ∀ s', Elems s s' → ∀ y ∈ (s'.seg a).pts, y ∈ (s'.seg b).pts → y = x := by
    intro s' he y hy hy'
    have : y ∈ (s.seg a).pts ∩ (s.seg b).pts :=
      ⟨he.runs.seg_subset h ha hy, he.runs.seg_subset h hb hy'⟩
    rw [hx] at this
    exact this
  unfold divideAt
  simp only
  by_cases h1 : x ≠ (s.lefts a).start ∧ x ≠ s.leftEnd a
  · rw [if_pos h1]
    have i1 := inner a hmem.1 h1
    have c1 : Cuts p (fun i => i = a ∨ i = b) s (s.divide a x) := by
      refine (Cuts.refl s).cut a x (.inl rfl) ha i1 ⟨b, hb, hmem.2, .inl fun hc => ?_⟩ (hp (.inl i1))
      exact hnt (Collinear.nontrivial_of_inner (h.nondegenerate ha) (h.nondegenerate hb) hc i1 hmem.2)
    have w1 := c1.elems.wf h
    have ea : (s.divide a x).leftEnd a = x := divide_leftEnd_self h ha x
    have eb : (s.divide a x).leftEnd b = s.leftEnd b := divide_leftEnd_other h ha x hb hab.symm
    have sb : (s.divide a x).seg b = s.seg b := divide_seg_other h ha x hb hab.symm
    have sa : (s.divide a x).seg a = ⟨(s.lefts a).start, x⟩ := divide_seg_self h ha x
    have hb1 := lt_of_lt_of_le hb c1.elems.nextLeft_le.1
    have ha1 := lt_of_lt_of_le ha c1.elems.nextLeft_le.1
    rw [divide_start h ha x hb, eb]
    by_cases h2 : x ≠ (s.lefts b).start ∧ x ≠ s.leftEnd b
    · rw [if_pos h2]
      have i2 := inner b hmem.2 h2
      have i2' : ((s.divide a x).seg b).Inner x := sb ▸ i2
      have c2 := c1.cut b x (.inr rfl) hb1 i2' ⟨a, ha1, by rw [sa]; exact finish_mem _,
        .inr (.inr (by rw [sa]))⟩ (hp (.inr i2))
      have ea2 : ((s.divide a x).divide b x).leftEnd a = x := by
        rw [divide_leftEnd_other w1 hb1 x ha1 hab, ea]
      have eb2 : ((s.divide a x).divide b x).leftEnd b = x := divide_leftEnd_self w1 hb1 x
      refine ⟨c2, .inr ⟨by rw [ea2]; exact i1, by rw [ea2]; exact hmem.2⟩,
        .inr ⟨by rw [eb2]; exact i2, by rw [eb2]; exact hmem.1⟩, fun _ y hy hy' => ?_,
        fun ho => absurd ho hno, fun ho => absurd ho hno, fun ho => absurd ho hno⟩
      obtain rfl := sub _ c2.elems y hy hy'
      exact ⟨.inr ea2.symm, .inr eb2.symm⟩
    · rw [if_neg h2]
      refine ⟨c1, .inr ⟨by rw [ea]; exact i1, by rw [ea]; exact hmem.2⟩, .inl eb,
        fun _ y hy hy' => ?_, fun ho => absurd ho hno, fun ho => absurd ho hno,
        fun ho => absurd ho hno⟩
      obtain rfl := sub _ c1.elems y hy hy'
      exact ⟨.inr ea.symm, by rw [sb]; exact notinner b h2⟩
  · rw [if_neg h1]
    by_cases h2 : x ≠ (s.lefts b).start ∧ x ≠ s.leftEnd b
    · rw [if_pos h2]
      have i2 := inner b hmem.2 h2
      have c2 := (Cuts.refl s).cut b x (p := p) (I := fun i => i = a ∨ i = b) (.inr rfl) hb i2
        ⟨a, ha, hmem.1, .inr (notinner a h1)⟩ (hp (.inr i2))
      have ea2 : (s.divide b x).leftEnd a = s.leftEnd a := divide_leftEnd_other h hb x ha hab
      have eb2 : (s.divide b x).leftEnd b = x := divide_leftEnd_self h hb x
      have sa : (s.divide b x).seg a = s.seg a := divide_seg_other h hb x ha hab
      refine ⟨c2, .inl ea2, .inr ⟨by rw [eb2]; exact i2, by rw [eb2]; exact hmem.1⟩,
        fun _ y hy hy' => ?_, fun ho => absurd ho hno, fun ho => absurd ho hno,
        fun ho => absurd ho hno⟩
      obtain rfl := sub _ c2.elems y hy hy'
      exact ⟨by rw [sa]; exact notinner a h1, .inr eb2.symm⟩
    · rw [if_neg h2]
      refine ⟨.refl s, .inl rfl, .inl rfl, fun _ y hy hy' => ?_, fun ho => absurd ho hno,
        fun ho => absurd ho hno, fun ho => absurd ho hno⟩
      obtain rfl := sub _ (.refl s) y hy hy'
      exact ⟨notinner a h1, notinner b h2⟩

theorem Detects.symm {p : Point K} {s s' : State K} (h : s.WF) {a b : Nat} (ha : a < s.nextLeft)
    (hb : b < s.nextLeft) (hd : Detects p s a b s') : Detects p s b a s' :=
  ⟨hd.cuts.mono fun _ => Or.symm, hd.second, hd.first,
    fun hn x hx hx' => (hd.cross (fun hc => hn (hc.symm (h.nondegenerate ha) (h.nondegenerate hb)))
      x hx' hx).symm,
    fun ho e => (hd.equal (ho.symm h hb ha) e.symm).symm, fun ho e => hd.greater (ho.symm h hb ha) e,
    fun ho e => hd.less (ho.symm h hb ha) e⟩

theorem OverlapDivision.detects {s s' : State K} (h : s.WF) {x y : Nat} (hx : x < s.nextLeft)
    (hy : y < s.nextLeft) (hxy : x ≠ y) (ho : Overlapping s x y) (hd : OverlapDivision s x y s')
    {p : Point K} (hp : ∀ z ∈ (s.seg x).pts, z ∈ (s.seg y).pts →
      (s.seg x).Inner z ∨ (s.seg y).Inner z → p ≤ z) : Detects p s x y s' := by
  have hc := ho.collinear
  have hc' := (ho.symm h hx hy).collinear
  cases hd with
  | same h0 h1 =>
    exact ⟨.refl s, .inl rfl, .inl rfl, fun hn => absurd hc hn, fun _ _ => h1,
      fun _ e => absurd h0 e.ne, fun _ e => absurd h0 e.ne'⟩
  | «prefix» h0 h1 =>
    have i1 := inner_of_between h hy hc'.2 ho.lt' h1
    have c1 := (Cuts.refl s).cut y _ (p := p) (I := fun i => i = x ∨ i = y) (.inr rfl) hy i1
      ⟨x, hx, finish_mem _, .inr (.inr rfl)⟩ (hp _ (finish_mem _) i1.1 (.inr i1))
    have ex := divide_leftEnd_other h hy (s.leftEnd x) hx hxy
    have ey := divide_leftEnd_self h hy (s.leftEnd x)
    exact ⟨c1, .inl ex, .inr ⟨by rw [ey]; exact i1, by rw [ey]; exact finish_mem (s.seg x)⟩, fun hn => absurd hc hn,
      fun _ _ => ex.trans ey.symm, fun _ e => absurd h0 e.ne, fun _ e => absurd h0 e.ne'⟩
  | «suffix» h0 h1 =>
    have i1 := inner_of_between h hx hc.1 h0 ho.lt'
    have c1 := (Cuts.refl s).cut x _ (p := p) (I := fun i => i = x ∨ i = y) (.inl rfl) hx i1
      ⟨y, hy, start_mem _, .inr (.inl rfl)⟩ (hp _ i1.1 (start_mem (s.seg y)) (.inl i1))
    have ex := divide_leftEnd_self h hx (s.lefts y).start
    have ey := divide_leftEnd_other h hx (s.lefts y).start hy hxy.symm
    exact ⟨c1, .inr ⟨by rw [ex]; exact i1, by rw [ex]; exact start_mem (s.seg y)⟩, .inl ey, fun hn => absurd hc hn,
      fun _ e => absurd e h0.ne, fun _ _ => ex, fun _ e => absurd e h0.asymm⟩
  | inside h0 h1 =>
    have i1 := inner_of_between h hx hc.2 ho.lt h1
    have i0 := inner_of_between h hx hc.1 h0 ho.lt'
    have c1 := (Cuts.refl s).cut x _ (p := p) (I := fun i => i = x ∨ i = y) (.inl rfl) hx i1
      ⟨y, hy, finish_mem _, .inr (.inr rfl)⟩ (hp _ i1.1 (finish_mem (s.seg y)) (.inl i1))
    have w1 := c1.elems.wf h
    have hx1 := lt_of_lt_of_le hx c1.elems.nextLeft_le.1
    have hy1 := lt_of_lt_of_le hy c1.elems.nextLeft_le.1
    have c2 := c1.cut x (s.lefts y).start (.inl rfl) hx1 (by
        refine inner_of_between w1 hx1 ?_ ?_ ?_
        · rw [divide_start h hx _ hx, divide_leftEnd_self h hx]
          exact collinear_trans (h.nondegenerate hx) (cross_self_right _ _) hc.2 hc.1
        · rw [divide_start h hx _ hx]; exact h0
        · rw [divide_leftEnd_self h hx]; exact h.lt y hy)
      ⟨y, hy1, by rw [← divide_start h hx _ hy]; exact start_mem _,
        .inr (.inl (by rw [← divide_start h hx _ hy]; rfl))⟩
      (hp _ i0.1 (start_mem (s.seg y)) (.inl i0))
    have ex : ((s.divide x (s.leftEnd y)).divide x (s.lefts y).start).leftEnd x
        = (s.lefts y).start := divide_leftEnd_self w1 hx1 (s.lefts y).start
    have ey : ((s.divide x (s.leftEnd y)).divide x (s.lefts y).start).leftEnd y = s.leftEnd y :=
      (divide_leftEnd_other w1 hx1 (s.lefts y).start hy1 hxy.symm).trans
      (divide_leftEnd_other h hx (s.leftEnd y) hy hxy.symm)
    exact ⟨c2, .inr ⟨by rw [ex]; exact i0, by rw [ex]; exact start_mem (s.seg y)⟩, .inl ey, fun hn => absurd hc hn,
      fun _ e => absurd e h0.ne, fun _ _ => ex, fun _ e => absurd e h0.asymm⟩
  | shifted h0 h1 =>
    have i1 := inner_of_between h hy hc'.2 ho.lt' h1
    have i0 := inner_of_between h hx hc.1 h0 ho.lt'
    have c1 := (Cuts.refl s).cut y _ (p := p) (I := fun i => i = x ∨ i = y) (.inr rfl) hy i1
      ⟨x, hx, finish_mem _, .inr (.inr rfl)⟩ (hp _ (finish_mem _) i1.1 (.inr i1))
    have w1 := c1.elems.wf h
    have hx1 := lt_of_lt_of_le hx c1.elems.nextLeft_le.1
    have hy1 := lt_of_lt_of_le hy c1.elems.nextLeft_le.1
    have c2 := c1.cut x (s.lefts y).start (.inl rfl) hx1
      (by rw [divide_seg_other h hy _ hx hxy]; exact i0)
      ⟨y, hy1, by rw [← divide_start h hy _ hy]; exact start_mem _,
        .inr (.inl (by rw [← divide_start h hy _ hy]; rfl))⟩
      (hp _ i0.1 (start_mem (s.seg y)) (.inl i0))
    have ex : ((s.divide y (s.leftEnd x)).divide x (s.lefts y).start).leftEnd x
        = (s.lefts y).start := divide_leftEnd_self w1 hx1 (s.lefts y).start
    have ey : ((s.divide y (s.leftEnd x)).divide x (s.lefts y).start).leftEnd y = s.leftEnd x :=
      (divide_leftEnd_other w1 hx1 (s.lefts y).start hy1 hxy.symm).trans
      (divide_leftEnd_self h hy (s.leftEnd x))
    exact ⟨c2, .inr ⟨by rw [ex]; exact i0, by rw [ex]; exact start_mem (s.seg y)⟩, .inr ⟨by rw [ey]; exact i1, by rw [ey]; exact finish_mem (s.seg x)⟩,
      fun hn => absurd hc hn, fun _ e => absurd e h0.ne, fun _ _ => ex,
      fun _ e => absurd e h0.asymm⟩

theorem Overlapping.shape {s t : State K} (hs : SameShape s t) {x y : Nat} :
    Overlapping t x y ↔ Overlapping s x y := by
  constructor
  · rintro ⟨h1, h2, h3⟩
    rw [hs.seg, hs.seg] at h1
    rw [hs.start, hs.leftEnd] at h2 h3
    exact ⟨h1, h2, h3⟩
  · rintro ⟨h1, h2, h3⟩
    rw [← hs.seg, ← hs.seg y] at h1
    rw [← hs.start, ← hs.leftEnd] at h2 h3
    exact ⟨h1, h2, h3⟩

theorem Detects.flags {p : Point K} {s t u v : State K} {a b : Nat} (h1 : Flags s t)
    (h : Detects p t a b u) (h2 : Flags u v) : Detects p s a b v := by
  have e1 := h1.shape
  have e2 := h2.shape
  refine ⟨(((Cuts.refl s).flags h1).trans h.cuts).flags h2, ?_, ?_, ?_, ?_, ?_, ?_⟩
  · rw [e2.leftEnd, ← e1.leftEnd, ← e1.seg, ← e1.seg]; exact h.first
  · rw [e2.leftEnd, ← e1.leftEnd, ← e1.seg, ← e1.seg]; exact h.second
  · rw [e2.seg, e2.seg, ← e1.seg, ← e1.seg]; exact h.cross
  · rw [e2.leftEnd, e2.leftEnd, ← e1.start, ← e1.start, ← Overlapping.shape e1]; exact h.equal
  · rw [e2.leftEnd, ← e1.start, ← e1.start, ← Overlapping.shape e1]; exact h.less
  · rw [e2.leftEnd, ← e1.start, ← e1.start, ← Overlapping.shape e1]; exact h.greater

theorem DetectRel.detects {context : Context K} (hc : context.Exact) {s s' : State K} (h : s.WF)
    {a b : Nat} (ha : a < s.nextLeft) (hb : b < s.nextLeft) {p : Point K}
    (hp : ∀ z ∈ (s.seg a).pts, z ∈ (s.seg b).pts →
      (s.seg a).Inner z ∨ (s.seg b).Inner z → p ≤ z) (hd : DetectRel context s a b s') :
    Detects p s a b s' := by
  obtain ⟨u, v, h1, h2, h3⟩ := hd
  refine Detects.flags h1 ?_ h3
  have e1 := h1.shape
  have hu := e1.wf h
  have ha' : a < u.nextLeft := e1.nextLeft ▸ ha
  have hb' : b < u.nextLeft := e1.nextLeft ▸ hb
  rw [← e1.seg, ← e1.seg] at hp
  have na := hu.nondegenerate ha'
  have nb := hu.nondegenerate hb'
  cases h2 with
  | single hr =>
    have hx := inter_of_relation hc na nb hr
    have hm : context.segmentsIntersection (u.seg a) (u.seg b) ∈ (u.seg a).pts ∩ (u.seg b).pts := by
      rw [hx]; rfl
    exact divideAt_detects hu ha' hb' hx (hp _ hm.1 hm.2)
  | overlap hr hr' hf =>
    have hn := nontrivial_of_relation hc na nb hr hr'
    have ho := (overlapping_iff hu ha' hb').mp hn
    have hab : a ≠ b := by rintro rfl; exact hf rfl
    rcases divideOverlapping_cases context hu ha' hb' hab with hd | hd
    · exact hd.detects hu ha' hb' hab ho hp
    · exact (hd.detects hu hb' ha' hab.symm (ho.symm hu ha' hb')
        fun z hz hz' hi => hp z hz' hz hi.symm).symm hu hb' ha'
  | apart hr =>
    have hrel := hc.relation _ _ na nb
    rw [hr] at hrel
    have hrel : (u.seg a).pts ∩ (u.seg b).pts = ∅ := hrel
    have hno : ¬ Overlapping u a b := fun ho => by
      have := (overlapping_iff hu ha' hb').mpr ho
      rw [hrel] at this
      exact Set.not_nontrivial_empty this
    refine ⟨.refl u, .inl rfl, .inl rfl, fun _ x hx hx' => ?_, fun ho => absurd ho hno,
      fun ho => absurd ho hno, fun ho => absurd ho hno⟩
    have : x ∈ (u.seg a).pts ∩ (u.seg b).pts := ⟨hx, hx'⟩
    rw [hrel] at this
    exact absurd this (Set.notMem_empty x)

end Orient.eventsQueue
