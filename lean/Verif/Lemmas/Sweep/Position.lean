import Verif.Lemmas.Sweep.Counts

/-! How the position of a piece relative to the other operand is seen from the piece below it. -/

set_option linter.unusedSectionVars false

namespace Orient.eventsQueue

variable {K : Type} [Field K] [LinearOrder K] [IsStrictOrderedRing K]

open Segment State

/-! ### the order of left events at a point -/

/-- The order of events refined by the directions of left events and their operands. -/
structure Leads (ε : K) (s : State K) (e e' : Ev) : Prop where
  prec : Prec s e e'
  left : ∀ k q, e = .left k → e' = .left q → (s.lefts k).start = (s.lefts q).start →
    (s.seg k).slope ε ≤ (s.seg q).slope ε ∧ ((s.seg k).slope ε = (s.seg q).slope ε →
      (s.lefts k).fromTest = true → (s.lefts q).fromTest = true)

theorem Leads.refl (ε : K) (s : State K) (e : Ev) : Leads ε s e e := by
  refine ⟨.refl s e, fun k q h1 h2 _ => ?_⟩
  rw [h1] at h2
  obtain rfl := Ev.left.inj h2
  exact ⟨le_rfl, fun _ h => h⟩

theorem Leads.trans {ε : K} {s : State K} {a b c : Ev} (h : Leads ε s a b) (h' : Leads ε s b c) :
    Leads ε s a c := by
  refine ⟨h.prec.trans h'.prec, fun k q h1 h2 e => ?_⟩
  subst h1 h2
  have e1 : s.evStart (.left k) = s.evStart b := le_antisymm h.prec.1 (h'.prec.1.trans_eq e.symm)
  have := h.prec.2 e1 rfl
  cases b with
  | right r => cases this
  | left m =>
    obtain ⟨a1, a2⟩ := h.left k m rfl rfl e1
    obtain ⟨b1, b2⟩ := h'.left m q rfl rfl (e1.symm.trans e)
    refine ⟨a1.trans b1, fun e ht => ?_⟩
    have e2 := le_antisymm a1 (e ▸ b1)
    exact b2 (e2 ▸ e) (a2 e2 ht)

theorem cross_slopes {ε : K} {u v : Segment K} (hu : u.start.time ε < u.finish.time ε)
    (hv : v.start.time ε < v.finish.time ε) (h : u.start = v.start) :
    cross u.start u.finish v.finish = (u.finish.time ε - u.start.time ε) *
      ((v.slope ε - u.slope ε) * (v.finish.time ε - v.start.time ε)) := by
  rw [cross_eq_height hu, ← height_finish hv]
  congr 1
  unfold height
  rw [h]; ring

theorem keyLt_left {context : Context K} (hc : context.Exact) {ε : K} {s : State K} {k q : Nat}
    (hk : (s.seg k).start.time ε < (s.seg k).finish.time ε)
    (hq : (s.seg q).start.time ε < (s.seg q).finish.time ε)
    (h : (s.lefts k).start = (s.lefts q).start) :
    keyLt context s (.left k) (.left q) = true ↔ (s.seg k).slope ε < (s.seg q).slope ε ∨
      ((s.seg k).slope ε = (s.seg q).slope ε ∧ (s.lefts q).fromTest = true) := by
  have e := cross_slopes hk hq h
  have p1 : 0 < (s.seg k).finish.time ε - (s.seg k).start.time ε := by linarith
  have p2 : 0 < (s.seg q).finish.time ε - (s.seg q).start.time ε := by linarith
  have hkey : keyLt context s (.left k) (.left q) =
      (if context.angleOrientation (s.seg k).start (s.seg k).finish (s.seg q).finish = .collinear
        then (s.lefts q).fromTest
        else decide (context.angleOrientation (s.seg k).start (s.seg k).finish (s.seg q).finish
          = .counterclockwise)) := by
    unfold keyLt
    simp only [State.evStart, h, ne_eq, not_true_eq_false, if_false, Ev.isLeft, if_true]
    rw [← h]
    rfl
  have ccw := hc.counterclockwise (s.seg k).start (s.seg k).finish (s.seg q).finish
  have cw := hc.clockwise (s.seg k).start (s.seg k).finish (s.seg q).finish
  rw [e] at ccw cw
  rw [hkey]
  rcases lt_trichotomy ((s.seg k).slope ε) ((s.seg q).slope ε) with hl | he | hl
  · have pos : 0 < ((s.seg q).slope ε - (s.seg k).slope ε) := by linarith
    rw [ccw.mpr (mul_pos p1 (mul_pos pos p2))]
    simp [hl]
  · rw [he, sub_self] at ccw cw
    simp only [zero_mul, mul_zero, lt_irrefl, iff_false] at ccw cw
    have : context.angleOrientation (s.seg k).start (s.seg k).finish (s.seg q).finish = .collinear := by
      revert ccw cw
      cases context.angleOrientation (s.seg k).start (s.seg k).finish (s.seg q).finish <;> simp
    rw [this]
    simp [he]
  · have neg : ((s.seg q).slope ε - (s.seg k).slope ε) < 0 := by linarith
    rw [cw.mpr (mul_neg_of_pos_of_neg p1 (mul_neg_of_neg_of_pos neg p2))]
    simp [hl.not_gt, hl.ne']

theorem keyLt_leads {context : Context K} (hc : context.Exact) {ε : K} {P : Finset (Point K)}
    {s : State K} (c : Clock ε P s) {e e' : Ev} (he : s.Valid e) (he' : s.Valid e')
    (h : keyLt context s e e' = true) : Leads ε s e e' := by
  refine ⟨keyLt_prec h, fun k q h1 h2 hs => ?_⟩
  subst h1 h2
  rcases (keyLt_left hc (c.times he) (c.times he') hs).mp h with h | ⟨h, h'⟩
  · exact ⟨h.le, fun e => absurd e h.ne⟩
  · exact ⟨h.le, fun _ _ => h'⟩

theorem not_keyLt_leads {context : Context K} (hc : context.Exact) {ε : K} {P : Finset (Point K)}
    {s : State K} (c : Clock ε P s) {e e' : Ev} (he : s.Valid e) (he' : s.Valid e')
    (h : ¬ keyLt context s e e' = true) : Leads ε s e' e := by
  refine ⟨not_keyLt_prec h, fun q k h1 h2 hs => ?_⟩
  subst h1 h2
  rw [keyLt_left hc (c.times he) (c.times he') hs.symm] at h
  push Not at h
  refine ⟨h.1, fun e ht => ?_⟩
  have := h.2 e.symm
  rw [ht] at this
  simp at this

theorem least_leads {context : Context K} (hc : context.Exact) {ε : K} {P : Finset (Point K)}
    {s : State K} (c : Clock ε P s) (best : Ev) (l : List Ev) (hv : ∀ e ∈ best :: l, s.Valid e) :
    ∀ e ∈ best :: l, Leads ε s (least context s best l) e := by
  induction l generalizing best with
  | nil => simpa [least] using Leads.refl ε s best
  | cons e l ih =>
    intro x hx
    rw [least]
    have vb := hv best (List.mem_cons_self ..)
    have ve := hv e (by simp)
    have ih := ih (if keyLt context s e best then e else best) (by
      intro y hy
      rcases List.mem_cons.mp hy with rfl | hy
      · split
        · exact ve
        · exact vb
      · exact hv y (by simp [hy]))
    have h0 := ih _ (List.mem_cons_self ..)
    rcases List.mem_cons.mp hx with rfl | hx
    · refine h0.trans ?_
      split
      · next hk => exact keyLt_leads hc c ve vb hk
      · exact .refl _ _ _
    · rcases List.mem_cons.mp hx with rfl | hx
      · refine h0.trans ?_
        split
        · exact .refl _ _ _
        · next hk => exact not_keyLt_leads hc c ve vb hk
      · exact ih x (List.mem_cons_of_mem _ hx)

theorem peek?_leads {context : Context K} (hc : context.Exact) {ε : K} {P : Finset (Point K)}
    {s : State K} (c : Clock ε P s) {e : Ev} (h : peek? context s = some e) :
    ∀ e' ∈ s.queue, Leads ε s e e' := by
  unfold peek? at h
  split at h
  · cases h
  · next hq =>
    simp only [Option.some.injEq] at h
    rw [hq, ← h]
    refine least_leads hc c _ _ fun e he => c.wf.valid_of_mem ?_
    rw [hq]; exact he

/-! ### times next to a point -/

/-- The time is after the given one and before all the later known points. -/
def Gap (ε : K) (P : Finset (Point K)) (a t : K) : Prop := a < t ∧ ∀ q ∈ P, a < q.time ε → t < q.time ε

theorem Gap.generic {ε : K} {P : Finset (Point K)} {a t : K} (h : Gap ε P a t) : Generic ε P t := by
  intro q hq e
  rcases lt_or_ge a (q.time ε) with h1 | h1
  · exact (h.2 q hq h1).ne e.symm
  · exact absurd (h.1.trans_eq e.symm) (not_lt.mpr h1)

theorem Gap.le {ε : K} {P : Finset (Point K)} {a t : K} (h : Gap ε P a t) {q : Point K} (hq : q ∈ P)
    (hle : q.time ε ≤ t) : q.time ε ≤ a := by
  by_contra hn
  exact absurd (h.2 q hq (not_le.mp hn)) (not_lt.mpr hle)

theorem exists_gap_before (ε : K) (P : Finset (Point K)) {a b : K} (hab : a < b) :
    ∃ t, a < t ∧ t < b ∧ ∀ q ∈ P, q.time ε < b → q.time ε < t := by
  classical
  induction P using Finset.induction_on with
  | empty =>
    obtain ⟨t, h1, h2⟩ := exists_between hab
    exact ⟨t, h1, h2, by simp⟩
  | insert q P _ ih =>
    obtain ⟨t, h1, h2, h3⟩ := ih
    by_cases hq : q.time ε < b
    · obtain ⟨t', k1, k2⟩ := exists_between (max_lt h2 hq)
      refine ⟨t', h1.trans ((le_max_left _ _).trans_lt k1), k2, fun x hx h => ?_⟩
      rcases Finset.mem_insert.mp hx with rfl | hx
      · exact (le_max_right _ _).trans_lt k1
      · exact (h3 x hx h).trans ((le_max_left _ _).trans_lt k1)
    · refine ⟨t, h1, h2, fun x hx h => ?_⟩
      rcases Finset.mem_insert.mp hx with rfl | hx
      · exact absurd h hq
      · exact h3 x hx h

section

variable {ε : K} {P : Finset (Point K)} {s₀ s : State K} {o : Nat → Nat}

/-- The piece of a segment at a time. -/
theorem piece_at (c₀ : Clock ε P s₀) (c : Clock ε P s) (hr : Refines s₀ s o) {b : Bool} {t : K}
    (ht : Generic ε P t) {u : Nat} (hu : u < s₀.nextLeft) (ha : ActiveAt ε s₀ b t u) :
    ∃ i < s.nextLeft, o i = u ∧ ActiveAt ε s b t i := by
  have m := pointAt_mem (c₀.times hu) ha.2.1.le ha.2.2.le
  have e := pointAt_time (ε := ε) (s₀.seg u) t
  obtain ⟨i, hi, ho, hx⟩ := hr.cover u hu _ m
  obtain ⟨k1, k2, -⟩ := (mem_pts_iff_height (c.times hi) _).mp hx
  rw [e] at k1 k2
  refine ⟨i, hi, ho, ?_, lt_of_le_of_ne k1 (ht _ (c.points.start i hi)),
    lt_of_le_of_ne k2 (Ne.symm (ht _ (c.points.finish i hi)))⟩
  rw [hr.fromTest i hi, ho]; exact ha.1

theorem same_original (c₀ : Clock ε P s₀) (c : Clock ε P s) (hr : Refines s₀ s o) {i : Nat}
    (hi : i < s.nextLeft) : Same ε (s₀.seg (o i)) (s.seg i) :=
  same_of_subset (c₀.times (hr.lt i hi)) (c.times hi) (hr.subset i hi (start_mem _))
    (hr.subset i hi (finish_mem _))

/-- A segment exists when its pieces do. -/
theorem original_active (c₀ : Clock ε P s₀) (hr : Refines s₀ s o) {b : Bool}
    {t : K} {i : Nat} (hi : i < s.nextLeft) (ha : ActiveAt ε s b t i) :
    ActiveAt ε s₀ b t (o i) := by
  have h1 := (mem_pts_iff_height (c₀.times (hr.lt i hi)) _).mp (hr.subset i hi (start_mem _))
  have h2 := (mem_pts_iff_height (c₀.times (hr.lt i hi)) _).mp (hr.subset i hi (finish_mem _))
  refine ⟨?_, lt_of_le_of_lt h1.1 ha.2.1, lt_of_lt_of_le ha.2.2 h2.2.1⟩
  rw [← hr.fromTest i hi]; exact ha.1

/-- Pieces after a point are those which start until it and end later. -/
theorem active_after (c : Clock ε P s) {p : Point K} (hp : p ∈ P) {t : K}
    (ht : Gap ε P (p.time ε) t) {b : Bool} {i : Nat} (hi : i < s.nextLeft) :
    ActiveAt ε s b t i ↔ (s.lefts i).fromTest = b ∧ (s.lefts i).start ≤ p ∧ p < s.leftEnd i := by
  unfold ActiveAt
  refine and_congr_right fun _ => and_congr ?_ ?_
  · rw [← c.le_iff (c.points.start i hi) hp]
    exact ⟨fun h => ht.le (c.points.start i hi) h.le, fun h => h.trans_lt ht.1⟩
  · rw [← c.lt_iff hp (c.points.finish i hi)]
    exact ⟨fun h => ht.1.trans h, fun h => ht.2 _ (c.points.finish i hi) h⟩

/-- The order immediately after a point is the order of heights. -/
theorem gap_height (c : Clock ε P s) {p : Point K} (hp : p ∈ P) {t : K}
    (ht : Gap ε P (p.time ε) t) {i j : Nat} (hi : i < s.nextLeft) (hj : j < s.nextLeft)
    (i1 : (s.lefts i).start ≤ p) (i2 : p < s.leftEnd i) (j1 : (s.lefts j).start ≤ p)
    (j2 : p < s.leftEnd j) (h : After ε (p.time ε) (s.seg i) (s.seg j)) :
    (s.seg i).height ε t < (s.seg j).height ε t := by
  by_contra hn
  obtain ⟨x, h1, h2, h3⟩ := h.meet ht.1 (not_lt.mp hn)
  have le : ∀ k < s.nextLeft, (s.lefts k).start ≤ p → (s.lefts k).start.time ε ≤ x := fun k hk e =>
    ((c.le_iff (c.points.start k hk) hp).mpr e).trans h1.le
  have ge : ∀ k < s.nextLeft, p < s.leftEnd k → x ≤ (s.leftEnd k).time ε := fun k hk e =>
    h2.trans (ht.2 _ (c.points.finish k hk) ((c.lt_iff hp (c.points.finish k hk)).mpr e)).le
  obtain ⟨y, hy, hyt, -⟩ := c.common hi hj h.not_same (le i hi i1) (ge i hi i2) (le j hj j1)
    (ge j hj j2) h3
  rw [← hyt] at h1 h2
  exact absurd (ht.le hy h2) (not_le.mpr h1)

/-! ### positions -/

/-- Whether a segment of the other operand is passed on the way up to a piece of the operand `b`:
segments of the test operand are below the ones of the goal operand on the same line. -/
def Passed (b : Bool) (h h' : K) : Prop := if b then h < h' else h ≤ h'

instance (b : Bool) (h h' : K) : Decidable (Passed b h h') := by unfold Passed; infer_instance

/-- The segments of the other operand which are below a piece of the operand `b`. -/
def under (ε : K) (s : State K) (b : Bool) (t h : K) : Finset Nat :=
  (Finset.range s.nextLeft).filter fun i => ActiveAt ε s (!b) t i ∧ Passed b ((s.seg i).height ε t) h

theorem mem_under {b : Bool} {t h : K} {i : Nat} : i ∈ under ε s b t h ↔
    i < s.nextLeft ∧ ActiveAt ε s (!b) t i ∧ Passed b ((s.seg i).height ε t) h := by
  simp [under]

theorem under_true (t h : K) : under ε s true t h = below ε s false t h := by
  ext i; simp [mem_under, mem_below, Passed]

theorem under_false (t h : K) : under ε s false t h = upto ε s true t h := by
  ext i; simp [mem_under, mem_upto, Passed]

theorem Passed.of_lt {b : Bool} {h h' : K} (hl : h < h') : Passed b h h' := by
  cases b
  · exact hl.le
  · exact hl

theorem Passed.not_of_gt {b : Bool} {h h' : K} (hl : h' < h) : ¬ Passed b h h' := by
  cases b
  · exact not_le.mpr hl
  · exact not_lt.mpr hl.le

theorem Passed.le {b : Bool} {h h' : K} (hp : Passed b h h') : h ≤ h' := by
  cases b
  · exact hp
  · exact le_of_lt hp

theorem Bounds.persist_under {b : Bool} (c : Clock ε P s) (hB : Bounds ε P s (!b)) (v : Segment K)
    {t₁ t₂ : K} (hlt : t₁ < t₂) (g₁ : Generic ε P t₁) (g₂ : Generic ε P t₂)
    (hno : ∀ i < s.nextLeft, (s.lefts i).fromTest = !b → ¬ Same ε v (s.seg i) → ∀ t, t₁ ≤ t → t ≤ t₂ →
      (s.lefts i).start.time ε ≤ t → t ≤ (s.leftEnd i).time ε →
      v.height ε t ≠ (s.seg i).height ε t) :
    Odd (under ε s b t₁ (v.height ε t₁)).card ↔ Odd (under ε s b t₂ (v.height ε t₂)).card := by
  obtain ⟨h1, h2⟩ := State.Bounds.persist c hB v hlt g₁ g₂ hno
  cases b
  · rw [under_false, under_false]; exact h2
  · rw [under_true, under_true]; exact h1

/-- The flag of a piece tells on which side of the other operand it starts. -/
def FlagOK (ε : K) (P : Finset (Point K)) (s₀ s : State K) (i : Nat) : Prop :=
  ∀ t, Gap ε P ((s.lefts i).start.time ε) t → ((s.lefts i).otherInteriorToLeft = true ↔
    Odd (under ε s₀ (s.lefts i).fromTest t ((s.seg i).height ε t)).card)

section position

variable {line l₁ l₂ : List Nat} {p : Point K} {m : Nat} {b : Bool} {t : K}

/-- What is needed of the sweep line to see the position of a piece `m` which starts at `p`. -/
structure Spot (ε : K) (P : Finset (Point K)) (s : State K) (l₁ l₂ : List Nat) (p : Point K)
    (m : Nat) (b : Bool) : Prop where
  base : Base ε P s (l₁ ++ m :: l₂) p
  start : (s.lefts m).start = p
  side : (s.lefts m).fromTest = b
  sorted : (l₁ ++ m :: l₂).Pairwise (Aft ε s (p.time ε))
  ends : ∀ i ∈ l₁ ++ l₂, p < s.leftEnd i
  /-- the queued pieces are above -/
  low : ∀ q, Ev.left q ∈ s.queue → (s.lefts q).start = p →
    (Same ε (s.seg m) (s.seg q) ∧ b = true) ∨ After ε (p.time ε) (s.seg m) (s.seg q)

section

variable (h : Spot ε P s l₁ l₂ p m b) (ht : Gap ε P (p.time ε) t)

include h ht

/-- The pieces of the other operand are below if they are below on the sweep line. -/
theorem Spot.dichotomy {i : Nat} (hi : i < s.nextLeft) (ha : ActiveAt ε s (!b) t i) :
    (i ∈ l₁ ∧ Passed b ((s.seg i).height ε t) ((s.seg m).height ε t)) ∨
    (i ∉ l₁ ∧ ¬ Passed b ((s.seg i).height ε t) ((s.seg m).height ε t) ∧
      (s.seg m).height ε t ≤ (s.seg i).height ε t) := by
  have c := h.base.clock
  have hp := h.base.mem
  have mm : m ∈ l₁ ++ m :: l₂ := by simp
  have hm := h.base.lt mm
  obtain ⟨f, i1, i2⟩ := (active_after c hp ht hi).mp ha
  have m1 : (s.lefts m).start ≤ p := h.start.le
  have m2 : p < s.leftEnd m := h.start ▸ c.wf.lt m hm
  obtain ⟨s1, s2, s3⟩ := List.pairwise_append.mp h.sorted
  have s2 := List.pairwise_cons.mp s2
  have up : After ε (p.time ε) (s.seg m) (s.seg i) →
      ¬ Passed b ((s.seg i).height ε t) ((s.seg m).height ε t) ∧
      (s.seg m).height ε t ≤ (s.seg i).height ε t := by
    intro ha
    have := gap_height c hp ht hm hi m1 m2 i1 i2 ha
    exact ⟨Passed.not_of_gt this, this.le⟩
  have eqv : Same ε (s.seg m) (s.seg i) → b = true →
      ¬ Passed b ((s.seg i).height ε t) ((s.seg m).height ε t) ∧
      (s.seg m).height ε t ≤ (s.seg i).height ε t := by
    intro hs hb
    subst hb
    rw [hs.at]
    exact ⟨lt_irrefl _, le_rfl⟩
  have nl : (Ev.left i ∈ s.queue ∨ i ∈ l₂) → i ∉ l₁ := by
    rintro (hq | hq) h1
    · exact ((h.base.active i).mp (List.mem_append_left _ h1)).2.1 hq
    · exact (List.nodup_append.mp h.base.nodup).2.2 i h1 i (List.mem_cons_of_mem _ hq) rfl
  by_cases hq : Ev.left i ∈ s.queue
  · right
    refine ⟨nl (.inl hq), ?_⟩
    have e : (s.lefts i).start = p := le_antisymm i1 (h.base.queue _ hq)
    rcases h.low i hq e with ⟨hs, hb⟩ | ha
    · exact eqv hs hb
    · exact up ha
  · have hl := h.base.mem_line hi hq i2
    rw [List.mem_append, List.mem_cons] at hl
    rcases hl with hl | rfl | hl
    · left
      refine ⟨hl, ?_⟩
      rcases s3 i hl m (List.mem_cons_self ..) with ⟨hs, -, hb⟩ | ha
      · rw [h.side] at hb
        subst hb
        exact (hs.at t).le
      · exact Passed.of_lt (gap_height c hp ht hi hm i1 i2 m1 m2 ha)
    · rw [h.side] at f
      cases b <;> simp at f
    · right
      refine ⟨nl (.inr hl), ?_⟩
      rcases s2.1 i hl with ⟨hs, hb, -⟩ | ha
      · exact eqv hs (h.side.symm.trans hb)
      · exact up ha

variable (c₀ : Clock ε P s₀) (hr : Refines s₀ s o)

include c₀ hr

theorem Spot.mem_under {u : Nat} :
    u ∈ under ε s₀ b t ((s.seg m).height ε t) ↔ ∃ i ∈ l₁, o i = u ∧ ActiveAt ε s (!b) t i := by
  have c := h.base.clock
  rw [eventsQueue.mem_under]
  constructor
  · rintro ⟨hu, ha, hpass⟩
    obtain ⟨i, hi, rfl, hai⟩ := piece_at c₀ c hr ht.generic hu ha
    rw [(same_original c₀ c hr hi).at] at hpass
    rcases h.dichotomy ht hi hai with h1 | h1
    · exact ⟨i, h1.1, rfl, hai⟩
    · exact absurd hpass h1.2.1
  · rintro ⟨i, hl, rfl, hai⟩
    have hi := h.base.lt (List.mem_append_left _ hl)
    refine ⟨hr.lt i hi, original_active c₀ hr hi hai, ?_⟩
    rw [(same_original c₀ c hr hi).at]
    rcases h.dichotomy ht hi hai with h1 | h1
    · exact h1.2
    · exact absurd hl h1.1

/-- Nothing is below the lowest piece. -/
theorem Spot.none (hl : l₁.getLast? = none) :
    ¬ Odd (under ε s₀ b t ((s.seg m).height ε t)).card := by
  rw [List.getLast?_eq_none_iff] at hl
  have : under ε s₀ b t ((s.seg m).height ε t) = ∅ := by
    ext u
    rw [h.mem_under ht c₀ hr, hl]
    simp
  rw [this]
  simp

theorem Spot.below_le {j : Nat} (hl : l₁.getLast? = some j) {i : Nat} (hi : i ∈ l₁) :
    i = j ∨ Aft ε s (p.time ε) i j := by
  obtain ⟨l, rfl⟩ := List.getLast?_eq_some_iff.mp hl
  rcases List.mem_append.mp hi with hi | hi
  · right
    have := (List.pairwise_append.mp h.sorted).1
    exact (List.pairwise_append.mp this).2.2 i hi j (by simp)
  · left; simpa using hi

/-- A piece of the other operand below tells the side. -/
theorem Spot.other {j : Nat} (hB : Bounds ε P s₀ (!b)) (hl : l₁.getLast? = some j)
    (hj : (s.lefts j).fromTest = !b) :
    (s.lefts j).interiorToLeft = true ↔ Odd (under ε s₀ b t ((s.seg m).height ε t)).card := by
  have c := h.base.clock
  have hp := h.base.mem
  have jl : j ∈ l₁ := List.mem_of_getLast? hl
  have jm : j ∈ l₁ ++ m :: l₂ := List.mem_append_left _ jl
  have hjn := h.base.lt jm
  have j1 := h.base.start_le jm
  have j2 := h.ends j (List.mem_append_left _ jl)
  have hja : ActiveAt ε s (!b) t j := (active_after c hp ht hjn).mpr ⟨hj, j1, j2⟩
  have hoj := original_active c₀ hr hjn hja
  have sj := same_original c₀ c hr hjn
  have card : (under ε s₀ b t ((s.seg m).height ε t)).card =
      (below ε s₀ (!b) t ((s.seg j).height ε t)).card + 1 := by
    have : under ε s₀ b t ((s.seg m).height ε t) =
        insert (o j) (below ε s₀ (!b) t ((s.seg j).height ε t)) := by
      ext u
      rw [h.mem_under ht c₀ hr, Finset.mem_insert, mem_below]
      constructor
      · rintro ⟨i, hil, rfl, hai⟩
        by_cases hij : i = j
        · exact .inl (by rw [hij])
        right
        have hi := h.base.lt (List.mem_append_left _ hil)
        obtain ⟨fi, i1, i2⟩ := (active_after c hp ht hi).mp hai
        refine ⟨hr.lt i hi, original_active c₀ hr hi hai, ?_⟩
        rw [(same_original c₀ c hr hi).at]
        rcases (h.below_le ht c₀ hr hl hil).resolve_left hij with ⟨-, e1, e2⟩ | ha
        · rw [fi] at e1; rw [hj, e1] at e2; cases e2
        · exact gap_height c hp ht hi hjn i1 i2 j1 j2 ha
      · rintro (rfl | ⟨hu, hau, hlt⟩)
        · exact ⟨j, jl, rfl, hja⟩
        · obtain ⟨i, hi, rfl, hai⟩ := piece_at c₀ c hr ht.generic hu hau
          rw [(same_original c₀ c hr hi).at] at hlt
          refine ⟨i, ?_, rfl, hai⟩
          rcases h.dichotomy ht hi hai with h1 | h1
          · exact h1.1
          · exfalso
            have mm : m ∈ l₁ ++ m :: l₂ := by simp
            have hm := h.base.lt mm
            have hjm := (List.pairwise_append.mp h.sorted).2.2 j jl m (List.mem_cons_self ..)
            have : (s.seg j).height ε t ≤ (s.seg m).height ε t := by
              rcases hjm with ⟨hs, -⟩ | ha
              · exact (hs.at t).le
              · exact (gap_height c hp ht hjn hm j1 j2 h.start.le (h.start ▸ c.wf.lt m hm) ha).le
            exact absurd (hlt.trans_le this) (not_lt.mpr h1.2.2)
    rw [this, Finset.card_insert_of_notMem]
    rw [mem_below]
    rintro ⟨-, -, hlt⟩
    rw [sj.at] at hlt
    exact lt_irrefl _ hlt
  rw [card, hr.interiorToLeft j hjn, hB.sides (o j) (hr.lt j hjn) t hoj ht.generic, sj.at,
    Nat.odd_add_one, Nat.not_odd_iff_even]

/-- A piece of the same operand below has the same position. -/
theorem Spot.same {j : Nat} (hl : l₁.getLast? = some j) (hj : (s.lefts j).fromTest = b) :
    under ε s₀ b t ((s.seg m).height ε t) = under ε s₀ b t ((s.seg j).height ε t) := by
  have c := h.base.clock
  have hp := h.base.mem
  have jl : j ∈ l₁ := List.mem_of_getLast? hl
  have jm : j ∈ l₁ ++ m :: l₂ := List.mem_append_left _ jl
  have hjn := h.base.lt jm
  have j1 := h.base.start_le jm
  have j2 := h.ends j (List.mem_append_left _ jl)
  have mm : m ∈ l₁ ++ m :: l₂ := by simp
  have hm := h.base.lt mm
  have hjm := (List.pairwise_append.mp h.sorted).2.2 j jl m (List.mem_cons_self ..)
  have hlt : (s.seg j).height ε t < (s.seg m).height ε t := by
    rcases hjm with ⟨-, e1, e2⟩ | ha
    · rw [hj, ← h.side, e2] at e1; cases e1
    · exact gap_height c hp ht hjn hm j1 j2 h.start.le (h.start ▸ c.wf.lt m hm) ha
  ext u
  rw [h.mem_under ht c₀ hr, eventsQueue.mem_under]
  constructor
  · rintro ⟨i, hil, rfl, hai⟩
    have hi := h.base.lt (List.mem_append_left _ hil)
    obtain ⟨fi, i1, i2⟩ := (active_after c hp ht hi).mp hai
    refine ⟨hr.lt i hi, original_active c₀ hr hi hai, ?_⟩
    rw [(same_original c₀ c hr hi).at]
    rcases h.below_le ht c₀ hr hl hil with rfl | ⟨hs, -, e⟩ | ha
    · rw [hj] at fi
      cases b <;> simp at fi
    · rw [hj] at e
      subst e
      exact (hs.at t).le
    · exact Passed.of_lt (gap_height c hp ht hi hjn i1 i2 j1 j2 ha)
  · rintro ⟨hu, hau, hpass⟩
    obtain ⟨i, hi, rfl, hai⟩ := piece_at c₀ c hr ht.generic hu hau
    rw [(same_original c₀ c hr hi).at] at hpass
    refine ⟨i, ?_, rfl, hai⟩
    rcases h.dichotomy ht hi hai with h1 | h1
    · exact h1.1
    · exact absurd (hpass.le.trans_lt hlt) (not_lt.mpr h1.2.2)

end

/-- A flag is valid along the piece while it is not met. -/
theorem FlagOK.transport (hb : Base ε P s line p) (c₀ : Clock ε P s₀) (hr : Refines s₀ s o) {j : Nat}
    (hj : j < s.nextLeft) (hB : Bounds ε P s₀ (!(s.lefts j).fromTest)) (hf : FlagOK ε P s₀ s j)
    (h1 : (s.lefts j).start ≤ p) (h2 : p < s.leftEnd j)
    (old : (s.lefts j).start < p → p ∈ (s.seg j).pts →
      (∀ i < s.nextLeft, (s.lefts i).fromTest = !(s.lefts j).fromTest → (s.lefts i).start = p →
        ∀ t, Gap ε P (p.time ε) t → p < s.leftEnd i →
          ¬ Passed (s.lefts j).fromTest ((s.seg i).height ε t) ((s.seg j).height ε t)) ∧
      ∀ e < s.nextLeft, (s.lefts e).start < p → p ∈ (s.seg e).pts →
        Same ε (s.seg j) (s.seg e) ∧ p < s.leftEnd e)
    (ht : Gap ε P (p.time ε) t) :
    (s.lefts j).otherInteriorToLeft = true ↔
      Odd (under ε s₀ (s.lefts j).fromTest t ((s.seg j).height ε t)).card := by
  have c := hb.clock
  have hp := hb.mem
  obtain ⟨b, hbj⟩ : ∃ b, (s.lefts j).fromTest = b := ⟨_, rfl⟩
  rcases h1.lt_or_eq with hlt | heq
  swap
  · exact hf t (by rw [heq]; exact ht)
  have hlt' : (s.lefts j).start.time ε < p.time ε := (c.lt_iff (c.points.start j hj) hp).mpr hlt
  obtain ⟨τ, g1, g2⟩ := exists_gap ε P ((s.lefts j).start.time ε)
  have hτ : Gap ε P ((s.lefts j).start.time ε) τ := ⟨g1, g2⟩
  rw [hf τ hτ]
  have hτp : τ < p.time ε := hτ.2 p hp hlt'
  rw [hbj] at hB old ⊢
  -- nothing is met strictly before the point
  have free : ∀ u < s₀.nextLeft, (s₀.lefts u).fromTest = !b → ¬ Same ε (s.seg j) (s₀.seg u) →
      ∀ σ, τ ≤ σ → σ ≤ t → (s₀.lefts u).start.time ε ≤ σ → σ ≤ (s₀.leftEnd u).time ε →
      (s.seg j).height ε σ = (s₀.seg u).height ε σ → ∃ i < s.nextLeft, ¬ Same ε (s.seg j) (s.seg i) ∧
        p ∈ (s.seg j).pts ∧ p ∈ (s.seg i).pts ∧ σ = p.time ε := by
    intro u hu hbu hns σ a1 a2 a3 a4 he
    have m := pointAt_mem (c₀.times hu) a3 a4
    have e := pointAt_time (ε := ε) (s₀.seg u) σ
    obtain ⟨i, hi, rfl, hx⟩ := hr.cover u hu _ m
    have si := same_original c₀ c hr hi
    have hxj : (s₀.seg (o i)).pointAt ε σ ∈ (s.seg j).pts := by
      refine (mem_pts_iff_height (c.times hj) _).mpr ?_
      rw [e]
      refine ⟨(g1.trans_le a1).le, a2.trans
        (ht.2 _ (c.points.finish j hj) ((c.lt_iff hp (c.points.finish j hj)).mpr h2)).le, ?_⟩
      rw [he]
      have := ((mem_pts_iff_height (c₀.times hu) _).mp m).2.2
      rw [e] at this
      exact this
    have hnij : ¬ Same ε (s.seg j) (s.seg i) := fun h => hns (h.trans si.symm)
    have hxP := c.mem hj hi hnij hxj hx
    have hxp : ((s₀.seg (o i)).pointAt ε σ).time ε ≤ p.time ε := ht.le hxP (by rw [e]; exact a2)
    have hxp' := (c.le_iff hxP hp).mp hxp
    rcases hxp'.lt_or_eq with hl | hl
    · rcases (hb.past j hj i hi hnij _ hxj hx hl).1 with k | k
      · rw [k] at e
        exact absurd (e.trans_ge a1) (not_le.mpr g1)
      · rw [k] at hl
        exact absurd (hl.trans h2) (lt_irrefl _)
    · rw [hl] at hx hxj e
      exact ⟨i, hi, hnij, hxj, hx, e.symm⟩
  by_cases hmem : p ∈ (s.seg j).pts
  swap
  · refine Bounds.persist_under c₀ hB _ (hτp.trans ht.1) hτ.generic ht.generic ?_
    intro u hu hbu hns σ a1 a2 a3 a4 he
    obtain ⟨i, -, -, k, -⟩ := free u hu hbu hns σ a1 a2 a3 a4 he
    exact hmem k
  · obtain ⟨old1, old2⟩ := old hlt hmem
    obtain ⟨ρ, r1, r2, r3⟩ := exists_gap_before ε P hτp
    have gρ : Generic ε P ρ := by
      intro q hq e
      rcases lt_or_ge (q.time ε) (p.time ε) with h | h
      · exact (r3 q hq h).ne e
      · exact absurd (h.trans_eq e) (not_le.mpr r2)
    rw [Bounds.persist_under c₀ hB (s.seg j) r1 hτ.generic gρ ?_]
    swap
    · intro u hu hbu hns σ a1 a2 a3 a4 he
      obtain ⟨i, -, -, -, -, k⟩ := free u hu hbu hns σ a1 (a2.trans (r2.trans ht.1).le) a3 a4 he
      rw [k] at a2
      exact absurd a2 (not_le.mpr r2)
    -- the same segments are below immediately before the point and after it
    have : under ε s₀ b ρ ((s.seg j).height ε ρ) = under ε s₀ b t ((s.seg j).height ε t) := by
      -- pieces which do not meet the point keep their side
      have keep : ∀ i < s.nextLeft, ¬ Same ε (s.seg j) (s.seg i) → (s.lefts i).start < p →
          p < s.leftEnd i → (Passed b ((s.seg i).height ε ρ) ((s.seg j).height ε ρ) ↔
            Passed b ((s.seg i).height ε t) ((s.seg j).height ε t)) := by
        intro i hi hns k1 k2
        have hpi : p ∉ (s.seg i).pts := fun h => hns (old2 i hi k1 h).1
        have st : (s.lefts i).start.time ε < ρ :=
          r3 _ (c.points.start i hi) ((c.lt_iff (c.points.start i hi) hp).mpr k1)
        have en : ∀ k < s.nextLeft, p < s.leftEnd k → t < (s.leftEnd k).time ε := fun k hk hkp =>
          ht.2 _ (c.points.finish k hk) ((c.lt_iff hp (c.points.finish k hk)).mpr hkp)
        have stj : (s.lefts j).start.time ε < ρ :=
          r3 _ (c.points.start j hj) ((c.lt_iff (c.points.start j hj) hp).mpr hlt)
        have ne : ∀ σ, ρ ≤ σ → σ ≤ t → (s.seg i).height ε σ ≠ (s.seg j).height ε σ := by
          intro σ s1 s2 he
          obtain ⟨y, hy, hyt, hyi, hyj⟩ := c.common hi hj (fun h => hns h.symm) (st.le.trans s1)
            (s2.trans (en i hi k2).le) (stj.le.trans s1) (s2.trans (en j hj h2).le) he
          have hyp : y.time ε ≤ p.time ε := ht.le hy (by rw [hyt]; exact s2)
          rcases hyp.lt_or_eq with hl | hl
          · have := r3 y hy hl
            rw [hyt] at this
            exact absurd s1 (not_le.mpr this)
          · rw [(c.eq_iff hy hp).mp hl] at hyi
            exact hpi hyi
        have lts : (s.seg i).height ε ρ < (s.seg j).height ε ρ ↔
            (s.seg i).height ε t < (s.seg j).height ε t := by
          constructor
          · intro hl
            by_contra hn
            obtain ⟨σ, s1, s2, s3⟩ := height_meet (r2.trans ht.1) hl (not_lt.mp hn)
            exact ne σ s1.le s2 s3
          · intro hl
            by_contra hn
            have hn' := lt_of_le_of_ne (not_lt.mp hn) (ne ρ le_rfl (r2.trans ht.1).le).symm
            obtain ⟨σ, s1, s2, s3⟩ := height_meet (r2.trans ht.1) hn' hl.le
            exact ne σ s1.le s2 s3.symm
        have n1 := ne ρ le_rfl (r2.trans ht.1).le
        have n2 := ne t (r2.trans ht.1).le le_rfl
        cases b
        · exact ⟨fun h => (lts.mp (lt_of_le_of_ne h n1)).le,
            fun h => (lts.mpr (lt_of_le_of_ne h n2)).le⟩
        · exact lts
      have same : ∀ i, Same ε (s.seg j) (s.seg i) → ∀ σ,
          (Passed b ((s.seg i).height ε σ) ((s.seg j).height ε σ) ↔ b = false) := by
        intro i hs σ
        rw [hs.at]
        cases b
        · exact ⟨fun _ => rfl, fun _ => le_rfl⟩
        · exact ⟨fun h => absurd h (lt_irrefl _), fun h => by cases h⟩
      have side : ∀ i < s.nextLeft, (s.lefts i).start < p → p < s.leftEnd i →
          (Passed b ((s.seg i).height ε ρ) ((s.seg j).height ε ρ) ↔
            Passed b ((s.seg i).height ε t) ((s.seg j).height ε t)) := by
        intro i hi k1 k2
        by_cases hs : Same ε (s.seg j) (s.seg i)
        · rw [same i hs, same i hs]
        · exact keep i hi hs k1 k2
      -- the pieces before the point
      have before : ∀ i < s.nextLeft, ActiveAt ε s (!b) ρ i ↔
          (s.lefts i).fromTest = !b ∧ (s.lefts i).start < p ∧ p ≤ s.leftEnd i := by
        intro i hi
        unfold ActiveAt
        refine and_congr_right fun _ => and_congr ?_ ?_
        · rw [← c.lt_iff (c.points.start i hi) hp]
          exact ⟨fun h => h.trans r2, fun h => r3 _ (c.points.start i hi) h⟩
        · rw [← c.le_iff hp (c.points.finish i hi)]
          refine ⟨fun h => ?_, fun h => r2.trans_le h⟩
          by_contra hn
          exact absurd h (r3 _ (c.points.finish i hi) (not_le.mp hn)).not_gt
      ext u
      rw [eventsQueue.mem_under, eventsQueue.mem_under]
      constructor
      · rintro ⟨hu, ha, hpass⟩
        obtain ⟨i, hi, rfl, hai⟩ := piece_at c₀ c hr gρ hu ha
        obtain ⟨f, k1, k2⟩ := (before i hi).mp hai
        have si := same_original c₀ c hr hi
        rw [si.at] at hpass ⊢
        have k3 : p < s.leftEnd i := by
          refine lt_of_le_of_ne k2 fun e => ?_
          have hpi : p ∈ (s.seg i).pts := by rw [e]; exact finish_mem _
          exact absurd e (old2 i hi k1 hpi).2.ne
        refine ⟨hu, original_active c₀ hr hi ((active_after c hp ht hi).mpr ⟨f, k1.le, k3⟩), ?_⟩
        exact (side i hi k1 k3).mp hpass
      · rintro ⟨hu, ha, hpass⟩
        obtain ⟨i, hi, rfl, hai⟩ := piece_at c₀ c hr ht.generic hu ha
        obtain ⟨f, k1, k2⟩ := (active_after c hp ht hi).mp hai
        have si := same_original c₀ c hr hi
        rw [si.at] at hpass ⊢
        have k3 : (s.lefts i).start < p := lt_of_le_of_ne k1 fun e => old1 i hi f e t ht k2 hpass
        refine ⟨hu, original_active c₀ hr hi ((before i hi).mpr ⟨f, k3, k2.le⟩), ?_⟩
        exact (side i hi k3 k2).mpr hpass
    rw [this]

/-- The position which is seen from the piece below. -/
def seen (s : State K) (below : Option Nat) (m : Nat) : Bool :=
  match below with
  | none => false
  | some j => positionOf s j m

/-- The position seen from the piece below is right. -/
theorem Spot.seen (h : Spot ε P s l₁ l₂ p m b) (c₀ : Clock ε P s₀) (hr : Refines s₀ s o)
    (hB : Bounds ε P s₀ (!b)) (ht : Gap ε P (p.time ε) t)
    (flag : ∀ j, l₁.getLast? = some j → (s.lefts j).fromTest = b → FlagOK ε P s₀ s j)
    (old : ∀ j, l₁.getLast? = some j → (s.lefts j).fromTest = b → (s.lefts j).start < p →
      p ∈ (s.seg j).pts → (∀ i ∈ l₁, (s.lefts i).start ≠ p) ∧
        ∀ e < s.nextLeft, (s.lefts e).start < p → p ∈ (s.seg e).pts →
          Same ε (s.seg j) (s.seg e) ∧ p < s.leftEnd e) :
    seen s l₁.getLast? m = true ↔ Odd (under ε s₀ b t ((s.seg m).height ε t)).card := by
  have c := h.base.clock
  cases hl : l₁.getLast? with
  | none =>
    exact ⟨fun h' => Bool.noConfusion h', fun ho => absurd ho (h.none ht c₀ hr hl)⟩
  | some j =>
    have jl : j ∈ l₁ := List.mem_of_getLast? hl
    have jm : j ∈ l₁ ++ m :: l₂ := List.mem_append_left _ jl
    have hjn := h.base.lt jm
    have j1 := h.base.start_le jm
    have j2 := h.ends j (List.mem_append_left _ jl)
    have mm : m ∈ l₁ ++ m :: l₂ := by simp
    have hm := h.base.lt mm
    change positionOf s j m = true ↔ _
    unfold positionOf
    split_ifs with hs
    · rw [h.side] at hs
      rw [h.same ht c₀ hr hl hs.symm]
      subst hs
      refine FlagOK.transport h.base c₀ hr hjn hB (flag j hl rfl) j1 j2 (fun k1 k2 => ?_) ht
      obtain ⟨o1, o2⟩ := old j hl rfl k1 k2
      refine ⟨fun i hi fi e τ hτ k3 hpass => ?_, o2⟩
      have hai : ActiveAt ε s (!(s.lefts j).fromTest) τ i :=
        (active_after c h.base.mem hτ hi).mpr ⟨fi, e.le, k3⟩
      rcases h.dichotomy hτ hi hai with k | k
      · exact o1 i k.1 e
      · have hjm := (List.pairwise_append.mp h.sorted).2.2 j jl m (List.mem_cons_self ..)
        have hlt : (s.seg j).height ε τ < (s.seg m).height ε τ := by
          rcases hjm with ⟨-, e1, e2⟩ | ha
          · rw [← h.side, e2] at e1; cases e1
          · exact gap_height c h.base.mem hτ hjn hm j1 j2 h.start.le (h.start ▸ c.wf.lt m hm) ha
        exact absurd (hpass.le.trans_lt hlt) (not_lt.mpr k.2.2)
    · refine h.other ht c₀ hr hB hl ?_
      rw [h.side] at hs
      revert hs
      cases b <;> cases (s.lefts j).fromTest <;> simp

end position

end

end Orient.eventsQueue
