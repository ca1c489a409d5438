import Verif.Lemmas.Sweep.Order

/-! What holds while the events at a point are handled. -/

set_option linter.unusedSectionVars false

namespace Orient.eventsQueue

variable {K : Type} [Field K] [LinearOrder K] [IsStrictOrderedRing K]

open Segment State

/-- The sweep line holds the pieces whose left event has been handled and whose right event has not,
all the events before `p` have been handled, and all the pieces are resolved before `p`. -/
structure Base (ε : K) (P : Finset (Point K)) (s : State K) (line : List Nat) (p : Point K) :
    Prop where
  clock : Clock ε P s
  mem : p ∈ P
  nodup : line.Nodup
  active : ∀ i, i ∈ line ↔ i < s.nextLeft ∧ Ev.left i ∉ s.queue ∧ Ev.right (s.lefts i).right ∈ s.queue
  queue : ∀ e ∈ s.queue, p ≤ s.evStart e
  popped : ∀ e, s.Valid e → e ∉ s.queue → s.evStart e ≤ p
  key : line.Pairwise (Key ε s)
  past : ∀ i < s.nextLeft, ∀ j < s.nextLeft, ¬ Same ε (s.seg i) (s.seg j) →
    ∀ x ∈ (s.seg i).pts, x ∈ (s.seg j).pts → x < p →
      (s.seg i).IsEndpoint x ∧ (s.seg j).IsEndpoint x
  pastSame : ∀ i < s.nextLeft, ∀ j < s.nextLeft, Same ε (s.seg i) (s.seg j) →
    (s.lefts i).start < p → (s.lefts j).start < p → (s.lefts i).start < s.leftEnd j →
    (s.lefts j).start < s.leftEnd i → (s.lefts i).start = (s.lefts j).start
  pastEnd : ∀ i < s.nextLeft, ∀ j < s.nextLeft, Same ε (s.seg i) (s.seg j) →
    (s.lefts i).start = (s.lefts j).start → s.leftEnd i < p → s.leftEnd j = s.leftEnd i
  clash : ¬ Clash s

section

variable {ε : K} {P : Finset (Point K)} {s : State K} {line : List Nat} {p : Point K}
  (hb : Base ε P s line p)

include hb

theorem Base.lt {i : Nat} (hi : i ∈ line) : i < s.nextLeft := ((hb.active i).mp hi).1

theorem Base.start_le {i : Nat} (hi : i ∈ line) : (s.lefts i).start ≤ p :=
  hb.popped (.left i) (hb.lt hi) ((hb.active i).mp hi).2.1

theorem Base.le_end {i : Nat} (hi : i ∈ line) : p ≤ s.leftEnd i :=
  hb.queue _ ((hb.active i).mp hi).2.2

/-- A piece which contains a moment after the handled ones is on the sweep line. -/
theorem Base.mem_line {i : Nat} (hi : i < s.nextLeft) (h : Ev.left i ∉ s.queue)
    (h' : p < s.leftEnd i) : i ∈ line := by
  refine (hb.active i).mpr ⟨hi, h, ?_⟩
  by_contra hn
  exact absurd (hb.popped (.right (s.lefts i).right) (hb.clock.wf.leftRight i hi).1 hn) (not_le.mpr h')

theorem Base.operands {i j : Nat} (hi : i < s.nextLeft) (hj : j < s.nextLeft) (hij : i ≠ j)
    (hs : Same ε (s.seg i) (s.seg j)) (h1 : (s.lefts i).start < s.leftEnd j)
    (h2 : (s.lefts j).start < s.leftEnd i) : (s.lefts i).fromTest ≠ (s.lefts j).fromTest := by
  intro e
  refine hb.clash ⟨i, j, hi, hj, hij, e.symm, ?_⟩
  exact (overlapping_iff hb.clock.wf hi hj).mpr ⟨(hb.clock.same_iff hi hj).mp hs, h1, h2⟩

theorem Base.noTriple {i j k : Nat} (hi : i < s.nextLeft) (hj : j < s.nextLeft) (hk : k < s.nextLeft)
    (hij : i ≠ j) (hik : i ≠ k) (hjk : j ≠ k) (h1 : Same ε (s.seg i) (s.seg j))
    (h2 : Same ε (s.seg i) (s.seg k)) (e1 : (s.lefts i).start = (s.lefts j).start)
    (e2 : (s.lefts i).start = (s.lefts k).start) : False := by
  have li := hb.clock.wf.lt i hi
  have lj := hb.clock.wf.lt j hj
  have lk := hb.clock.wf.lt k hk
  have a := hb.operands hi hj hij h1 (e1 ▸ lj) (e1 ▸ li)
  have b := hb.operands hi hk hik h2 (e2 ▸ lk) (e2 ▸ li)
  have c := hb.operands hj hk hjk (h1.symm.trans h2) (by rw [← e1, e2]; exact lk)
    (by rw [← e2, e1]; exact lj)
  revert a b c
  cases (s.lefts i).fromTest <;> cases (s.lefts j).fromTest <;> cases (s.lefts k).fromTest <;> simp

end

theorem Base.shape {ε : K} {P : Finset (Point K)} {s t : State K} {line : List Nat} {p : Point K}
    (hb : Base ε P s line p) (h : SameShape s t) : Base ε P t line p := by
  have hc : Clock ε P t := by
    refine ⟨h.wf hb.clock.wf, ⟨?_, ?_, ?_⟩, hb.clock.mono⟩
    · rw [h.nextLeft]; intro i hi; rw [h.start]; exact hb.clock.points.start i hi
    · rw [h.nextLeft]; intro i hi; rw [h.leftEnd]; exact hb.clock.points.finish i hi
    · rw [h.nextLeft]; intro i hi j hj; rw [h.seg, h.seg]; exact hb.clock.points.common i hi j hj
  refine ⟨hc, hb.mem, hb.nodup, ?_, ?_, ?_, ?_, ?_, ?_, ?_, ?_⟩
  · intro i; rw [h.nextLeft, h.queue, h.right]; exact hb.active i
  · intro e; rw [h.queue, SameShape.evStart h]; exact hb.queue e
  · intro e he
    rw [h.queue, SameShape.evStart h]
    refine hb.popped e ?_
    cases e with
    | left i => exact (show i < s.nextLeft from h.nextLeft ▸ he)
    | right i => exact (show i < s.nextRight from h.nextRight ▸ he)
  · refine hb.key.imp fun {i j} hk => ?_
    unfold Key Aft Cls at hk ⊢
    rw [h.start, h.start, h.seg, h.seg, h.fromTest, h.fromTest]; exact hk
  · rw [h.nextLeft]; intro i hi j hj; rw [h.seg, h.seg]; exact hb.past i hi j hj
  · rw [h.nextLeft]; intro i hi j hj
    rw [h.seg, h.seg, h.start, h.start, h.leftEnd, h.leftEnd]; exact hb.pastSame i hi j hj
  · rw [h.nextLeft]; intro i hi j hj
    rw [h.seg, h.seg, h.start, h.start, h.leftEnd, h.leftEnd]; exact hb.pastEnd i hi j hj
  · exact fun hcl => hb.clash (((Refines.refl s).shape h).clash hc.wf hcl)

theorem Base.cut {ε : K} {P : Finset (Point K)} {s : State K} {line : List Nat} {p : Point K}
    (hb : Base ε P s line p) {i : Nat} (hil : i ∈ line) {x : Point K} (hx : (s.seg i).Inner x)
    (hj : ∃ j < s.nextLeft, x ∈ (s.seg j).pts ∧
        (¬ (s.seg i).Collinear (s.seg j) ∨ (s.seg j).IsEndpoint x)) (hp : p ≤ x) :
    Base ε P (s.divide i x) line p := by
  have hi := hb.lt hil
  have hw := hb.clock.wf
  have el : Elem s (s.divide i x) := .divide i x hi hx hj
  have hc := hb.clock.elems el.elems
  obtain ⟨-, hx1, hx2⟩ := (hw.inner_iff hi).mp hx
  have cases : ∀ j, j < (s.divide i x).nextLeft → j < s.nextLeft ∨ j = s.nextLeft :=
    fun j hj => Nat.lt_succ_iff_lt_or_eq.mp hj
  have sub : ∀ j < s.nextLeft, ((s.divide i x).seg j).pts ⊆ (s.seg j).pts := fun j hj =>
    el.elems.runs.seg_subset hw hj
  have ends : ∀ j < s.nextLeft, (s.divide i x).leftEnd j ≤ s.leftEnd j := by
    intro j hj
    by_cases hji : j = i
    · subst hji; rw [divide_leftEnd_self hw hi]; exact hx2.le
    · rw [divide_leftEnd_other hw hi x hj hji]
  have ends' : ∀ j < s.nextLeft, s.leftEnd j < p → (s.divide i x).leftEnd j = s.leftEnd j := by
    intro j hj hlt
    by_cases hji : j = i
    · subst hji; exact absurd (hp.trans hx2.le) (not_le.mpr hlt)
    · rw [divide_leftEnd_other hw hi x hj hji]
  have ends'' : ∀ j < s.nextLeft, (s.divide i x).leftEnd j < p →
      (s.divide i x).leftEnd j = s.leftEnd j := by
    intro j hj hlt
    by_cases hji : j = i
    · subst hji; rw [divide_leftEnd_self hw hi] at hlt; exact absurd hp (not_le.mpr hlt)
    · rw [divide_leftEnd_other hw hi x hj hji]
  have startNew : ((s.divide i x).lefts s.nextLeft).start = x := by rw [divide_lefts_new hw hi x]
  have endNew := divide_leftEnd_new hw hi x
  have notNew : ∀ y ∈ ((s.divide i x).seg s.nextLeft).pts, ¬ y < p := by
    intro y hy
    have := hc.start_le (show s.nextLeft < s.nextLeft + 1 from Nat.lt_succ_self _) hy
    rw [startNew] at this
    exact not_lt.mpr (hp.trans this)
  have endpt : ∀ j < s.nextLeft, ∀ y ∈ ((s.divide i x).seg j).pts, (s.seg j).IsEndpoint y → y < p →
      ((s.divide i x).seg j).IsEndpoint y := by
    rintro j hj y hy (e | e) hlt
    · exact .inl (e.trans (divide_start hw hi x hj).symm)
    · refine .inr (e.trans (ends' j hj ?_).symm)
      have e : y = s.leftEnd j := e
      rwa [← e]
  refine ⟨hc, hb.mem, hb.nodup, ?_, ?_, ?_, ?_, ?_, ?_, ?_, ?_⟩
  · intro j
    have q : (s.divide i x).queue = .right s.nextRight :: .left s.nextLeft :: s.queue := rfl
    rw [q]
    simp only [List.mem_cons, reduceCtorEq, false_or, Ev.left.injEq, Ev.right.injEq, not_or]
    constructor
    · intro hjl
      have hj := hb.lt hjl
      obtain ⟨-, a2, a3⟩ := (hb.active j).mp hjl
      refine ⟨Nat.lt_succ_of_lt hj, ⟨hj.ne, a2⟩, ?_⟩
      by_cases hji : j = i
      · subst hji; rw [divide_lefts_self hw hi]; exact .inl rfl
      · rw [divide_lefts_other hw hi x hj hji]; exact .inr a3
    · rintro ⟨hj, ⟨hne, hq⟩, hr⟩
      have hj := (cases j hj).resolve_right hne
      by_cases hji : j = i
      · rw [hji]; exact hil
      · rw [divide_lefts_other hw hi x hj hji] at hr
        refine (hb.active j).mpr ⟨hj, hq, hr.resolve_left ?_⟩
        exact ((hw.leftRight j hj).1).ne
  · intro e he
    rcases List.mem_cons.mp he with rfl | he
    · change p ≤ ((s.divide i x).rights s.nextRight).start
      rw [divide_rights_new hw hi]; exact hp
    · rcases List.mem_cons.mp he with rfl | he
      · change p ≤ ((s.divide i x).lefts s.nextLeft).start
        rw [startNew]; exact hp
      · rw [(el.evStart hw (hw.valid_of_mem he)).1]
        exact hb.queue e he
  · intro e he hq
    rcases el.queue.2 e he with hv | hv
    · rw [(el.evStart hw hv).1]
      exact hb.popped e hv fun hm => hq (el.queue.1 e hm)
    · exact absurd hv hq
  · refine List.Pairwise.imp_of_mem (fun {a b} ha hb' hk => ?_) hb.key
    unfold Key
    rw [divide_start hw hi x (hb.lt ha), divide_start hw hi x (hb.lt hb')]
    exact hb.clock.aft el.elems (hb.lt ha) (hb.lt hb') hk
  · intro a ha b hb' hn y hy hy' hlt
    rcases cases a ha with ha | rfl
    · rcases cases b hb' with hb' | rfl
      · have := hb.past a ha b hb' (fun hs => hn ((hb.clock.same_congr el.elems ha hb').mpr hs)) y
          (sub a ha hy) (sub b hb' hy') hlt
        exact ⟨endpt a ha y hy this.1 hlt, endpt b hb' y hy' this.2 hlt⟩
      · exact absurd hlt (notNew y hy')
    · exact absurd hlt (notNew y hy)
  · intro a ha b hb' hs h1 h2 h3 h4
    rcases cases a ha with ha | rfl
    · rcases cases b hb' with hb' | rfl
      · rw [divide_start hw hi x ha] at h1 h3 ⊢
        rw [divide_start hw hi x hb'] at h2 h4 ⊢
        exact hb.pastSame a ha b hb' ((hb.clock.same_congr el.elems ha hb').mp hs) h1 h2
          (h3.trans_le (ends b hb')) (h4.trans_le (ends a ha))
      · rw [startNew] at h2; exact absurd hp (not_le.mpr h2)
    · rw [startNew] at h1; exact absurd hp (not_le.mpr h1)
  · intro a ha b hb' hs h1 h2
    rcases cases a ha with ha | rfl
    · have e := ends'' a ha h2
      rw [e] at h2 ⊢
      rw [divide_start hw hi x ha] at h1
      rcases cases b hb' with hb' | rfl
      · rw [divide_start hw hi x hb'] at h1
        have := hb.pastEnd a ha b hb' ((hb.clock.same_congr el.elems ha hb').mp hs) h1 h2
        rw [ends' b hb' (this ▸ h2), this]
      · rw [startNew] at h1
        have := hw.lt a ha
        rw [h1] at this
        exact absurd (hp.trans this.le) (not_le.mpr h2)
    · rw [endNew] at h2
      exact absurd (hp.trans hx2.le) (not_le.mpr h2)
  · exact fun hcl => hb.clash (((Refines.refl s).divide hw hi hx).clash hc.wf hcl)

theorem Base.cuts {ε : K} {P : Finset (Point K)} {s t : State K} {line : List Nat} {p : Point K}
    (hb : Base ε P s line p) (h : Cuts p (· ∈ line) s t) : Base ε P t line p := by
  induction h with
  | refl => exact hb
  | flags _ h2 ih => exact ih.shape h2.shape
  | cut i x _ h1 h2 h3 h4 h5 ih => exact ih.cut h1 h3 h4 h5

/-! ### resolved neighbours -/

/-- A piece that starts at the point is queued. -/
def Starts (s : State K) (x : Point K) : Prop :=
  ∃ k, Ev.left k ∈ s.queue ∧ (s.lefts k).start = x

/-- A piece that starts at the point and goes along the line of the segment is queued. -/
def Goes (ε : K) (s : State K) (u : Segment K) (x : Point K) : Prop :=
  ∃ k, Ev.left k ∈ s.queue ∧ (s.lefts k).start = x ∧ Same ε u (s.seg k)

/-- All the common points of the pieces are endpoints of both; pieces on a line start together and end
together unless one has been divided since, or touch. -/
structure Settled (ε : K) (s : State K) (p : Point K) (a b : Nat) : Prop where
  cross : ¬ Same ε (s.seg a) (s.seg b) → ∀ x ∈ (s.seg a).pts, x ∈ (s.seg b).pts →
    (s.seg a).IsEndpoint x ∧ (s.seg b).IsEndpoint x
  same : Same ε (s.seg a) (s.seg b) →
    ((s.lefts a).start = (s.lefts b).start ∧ (s.leftEnd a = s.leftEnd b ∨
      ((s.lefts a).start < p ∧ (s.leftEnd a < s.leftEnd b → Goes ε s (s.seg a) (s.leftEnd a)) ∧
        (s.leftEnd b < s.leftEnd a → Goes ε s (s.seg b) (s.leftEnd b))))) ∨
    s.leftEnd a = (s.lefts b).start ∨ s.leftEnd b = (s.lefts a).start

theorem Starts.mono {s t : State K} (hw : s.WF) (h : Elems s t) {x : Point K} (hs : Starts s x) :
    Starts t x := by
  obtain ⟨k, hk, e⟩ := hs
  exact ⟨k, h.queue.1 _ hk, ((h.evStart hw (e := .left k) (hw.queueLeft k hk)).1).trans e⟩

theorem Starts.shape {s t : State K} (h : SameShape s t) {x : Point K} (hs : Starts s x) :
    Starts t x := by
  obtain ⟨k, hk, e⟩ := hs
  exact ⟨k, by rw [h.queue]; exact hk, by rw [h.start]; exact e⟩

theorem Goes.starts {ε : K} {s : State K} {u : Segment K} {x : Point K} (h : Goes ε s u x) :
    Starts s x := by
  obtain ⟨k, hk, e, -⟩ := h
  exact ⟨k, hk, e⟩

theorem Goes.line {ε : K} {s : State K} {u v : Segment K} {x : Point K} (h : Goes ε s u x)
    (hs : Same ε v u) : Goes ε s v x := by
  obtain ⟨k, hk, e, hs'⟩ := h
  exact ⟨k, hk, e, hs.trans hs'⟩

theorem Goes.mono {ε : K} {P : Finset (Point K)} {s t : State K} (c : Clock ε P s) (h : Elems s t)
    {u : Segment K} {x : Point K} (hs : Goes ε s u x) : Goes ε t u x := by
  obtain ⟨k, hk, e, hs⟩ := hs
  have hk' := c.wf.queueLeft k hk
  exact ⟨k, h.queue.1 _ hk, ((h.evStart c.wf (e := .left k) hk').1).trans e, hs.trans (c.same h hk')⟩

theorem Goes.shape {ε : K} {s t : State K} (h : SameShape s t) {u : Segment K} {x : Point K}
    (hs : Goes ε s u x) : Goes ε t u x := by
  obtain ⟨k, hk, e, hs⟩ := hs
  exact ⟨k, by rw [h.queue]; exact hk, by rw [h.start]; exact e, by rw [h.seg]; exact hs⟩

/-- A piece which has been divided goes on. -/
theorem Goes.tail {ε : K} {P : Finset (Point K)} {s t : State K} {I : Nat → Prop} {p : Point K}
    (c : Clock ε P s) (h : Cuts p I s t) {i : Nat} (hi : i < s.nextLeft) :
    t.leftEnd i = s.leftEnd i ∨
      (t.leftEnd i < s.leftEnd i ∧ p ≤ t.leftEnd i ∧ Goes ε t (s.seg i) (t.leftEnd i)) := by
  rcases h.tail c.wf hi with e | ⟨h1, h2, k, hk, e, hsub⟩
  · exact .inl e
  · have c' := c.elems h.elems
    exact .inr ⟨h1, h2, k, hk, e, same_of_subset (c.times hi) (c'.times (c'.wf.queueLeft k hk))
      (hsub (start_mem _)) (hsub (finish_mem _))⟩

/-- The same pieces with at least the same starts queued. -/
theorem Settled.congr {ε : K} {s t : State K} {p : Point K} {a b : Nat} (h : Settled ε s p a b)
    (ha : t.seg a = s.seg a) (hb : t.seg b = s.seg b)
    (hs : Goes ε s (s.seg a) (s.leftEnd a) → Goes ε t (s.seg a) (s.leftEnd a))
    (hs' : Goes ε s (s.seg b) (s.leftEnd b) → Goes ε t (s.seg b) (s.leftEnd b)) :
    Settled ε t p a b := by
  have a1 : (t.lefts a).start = (s.lefts a).start := congrArg Segment.start ha
  have a2 : t.leftEnd a = s.leftEnd a := congrArg Segment.finish ha
  have b1 : (t.lefts b).start = (s.lefts b).start := congrArg Segment.start hb
  have b2 : t.leftEnd b = s.leftEnd b := congrArg Segment.finish hb
  refine ⟨?_, ?_⟩
  · rw [ha, hb]; exact h.cross
  · rw [ha, hb, a1, a2, b1, b2]
    intro hsame
    rcases h.same hsame with ⟨h1, h2 | ⟨h2, h3, h4⟩⟩ | h1
    · exact .inl ⟨h1, .inl h2⟩
    · exact .inl ⟨h1, .inr ⟨h2, fun hl => hs (h3 hl), fun hl => hs' (h4 hl)⟩⟩
    · exact .inr h1

theorem Settled.shape {ε : K} {s t : State K} {p : Point K} {a b : Nat} (h : Settled ε s p a b)
    (hs : SameShape s t) : Settled ε t p a b :=
  h.congr (hs.seg a) (hs.seg b) (Goes.shape hs) (Goes.shape hs)

/-- Neighbours stay resolved if they do not start together at the current point on a line. -/
theorem Settled.cuts {ε : K} {P : Finset (Point K)} {s t : State K} {line : List Nat} {p : Point K}
    (hb : Base ε P s line p) (hc : Cuts p (· ∈ line) s t) {a b : Nat} (ha : a ∈ line) (hbl : b ∈ line)
    (h : Settled ε s p a b)
    (hn : ¬ (Same ε (s.seg a) (s.seg b) ∧ (s.lefts a).start = p ∧ (s.lefts b).start = p)) :
    Settled ε t p a b := by
  have hw := hb.clock.wf
  have ha' := hb.lt ha
  have hb' := hb.lt hbl
  have hs := hb.clock.same_congr hc.elems ha' hb'
  have c' := hb.clock.elems hc.elems
  have sub : ∀ i, i < s.nextLeft → (t.seg i).pts ⊆ (s.seg i).pts := fun i hi =>
    hc.elems.runs.seg_subset hw hi
  have tl : ∀ i, i < s.nextLeft → t.leftEnd i ≤ s.leftEnd i := by
    intro i hi
    rcases hc.tail hw hi with e | e
    · exact e.le
    · exact e.1.le
  have endpt : ∀ i, i < s.nextLeft → ∀ x ∈ (t.seg i).pts, (s.seg i).IsEndpoint x →
      (t.seg i).IsEndpoint x := by
    rintro i hi x hx (e | e)
    · exact .inl (e.trans (hc.start hw hi).symm)
    · have e : x = s.leftEnd i := e
      have h1 := c'.le_end (lt_of_lt_of_le hi hc.elems.nextLeft_le.1) hx
      have h2 := tl i hi
      rw [← e] at h2
      exact .inr (le_antisymm h1 h2)
  refine ⟨fun hns x hx hx' => ?_, fun hsame => ?_⟩
  · have := h.cross (fun e => hns (hs.mpr e)) x (sub a ha' hx) (sub b hb' hx')
    exact ⟨endpt a ha' x hx this.1, endpt b hb' x hx' this.2⟩
  · rw [hc.start hw ha', hc.start hw hb']
    have ta := Goes.tail hb.clock hc ha'
    have tb := Goes.tail hb.clock hc hb'
    rcases h.same (hs.mp hsame) with ⟨h1, h2⟩ | h1 | h1
    · left
      refine ⟨h1, ?_⟩
      have hlt : (s.lefts a).start < p := by
        refine lt_of_le_of_ne (hb.start_le ha) fun e => hn ⟨hs.mp hsame, e, h1 ▸ e⟩
      right
      refine ⟨hlt, fun hl => ?_, fun hl => ?_⟩
      · rcases ta with ta | ⟨-, -, ta⟩
        · rcases h2 with h2 | ⟨-, h2, -⟩
          · rw [ta, h2] at hl
            exact absurd (tl b hb') (not_le.mpr hl)
          · rw [ta] at hl ⊢
            exact ((h2 (hl.trans_le (tl b hb'))).mono hb.clock hc.elems).line
              (hb.clock.same hc.elems ha').symm
        · exact ta.line (hb.clock.same hc.elems ha').symm
      · rcases tb with tb | ⟨-, -, tb⟩
        · rcases h2 with h2 | ⟨-, -, h2⟩
          · rw [tb, ← h2] at hl
            exact absurd (tl a ha') (not_le.mpr hl)
          · rw [tb] at hl ⊢
            exact ((h2 (hl.trans_le (tl a ha'))).mono hb.clock hc.elems).line
              (hb.clock.same hc.elems hb').symm
        · exact tb.line (hb.clock.same hc.elems hb').symm
    · right; left
      rcases ta with ta | ⟨t1, t2, -⟩
      · rw [ta, h1]
      · rw [h1] at t1
        exact absurd (hb.start_le hbl) (not_le.mpr (t2.trans_lt t1))
    · right; right
      rcases tb with tb | ⟨t1, t2, -⟩
      · rw [tb, h1]
      · rw [h1] at t1
        exact absurd (hb.start_le ha) (not_le.mpr (t2.trans_lt t1))

theorem Aft.cls {ε t : K} {s : State K} {i j : Nat} (h : Aft ε s t i j)
    (hs : Same ε (s.seg i) (s.seg j)) : Cls ε s i j :=
  h.resolve_right fun h => h.not_same hs

/-- Pieces with a common start on different lines have no other common point. -/
theorem eq_of_common_start {ε : K} {P : Finset (Point K)} {s : State K} (c : Clock ε P s) {i j : Nat}
    (hi : i < s.nextLeft) (hj : j < s.nextLeft) (hn : ¬ Same ε (s.seg i) (s.seg j))
    (he : (s.lefts i).start = (s.lefts j).start) {x : Point K} (hx : x ∈ (s.seg i).pts)
    (hx' : x ∈ (s.seg j).pts) : x = (s.lefts i).start := by
  by_contra hne
  refine hn ((c.same_iff hi hj).mpr (collinear_of_nontrivial (c.wf.nondegenerate hj)
    ⟨x, ⟨hx, hx'⟩, (s.lefts i).start, ⟨start_mem _, ?_⟩, hne⟩))
  rw [he]; exact start_mem _

/-- The detection of an intersection does not change pieces which start together on different lines. -/
theorem Detects.same_start {ε : K} {P : Finset (Point K)} {s s' : State K} (c : Clock ε P s) {i j : Nat}
    {p : Point K} (hi : i < s.nextLeft) (hj : j < s.nextLeft) (hn : ¬ Same ε (s.seg i) (s.seg j))
    (he : (s.lefts i).start = (s.lefts j).start) (hd : Detects p s i j s') :
    s'.leftEnd i = s.leftEnd i ∧ s'.leftEnd j = s.leftEnd j := by
  constructor
  · rcases hd.first with h | ⟨h1, h2⟩
    · exact h
    · exact absurd (eq_of_common_start c hi hj hn he h1.1 h2)
        fun e => h1.2 (.inl e)
  · rcases hd.second with h | ⟨h1, h2⟩
    · exact h
    · exact absurd (eq_of_common_start c hj hi (fun h => hn h.symm) he.symm h1.1 h2)
        fun e => h1.2 (.inl e)

theorem Detects.seg {s s' : State K} (hw : s.WF) {a b i : Nat} {p : Point K} (hd : Detects p s a b s')
    (hi : i < s.nextLeft) (he : s'.leftEnd i = s.leftEnd i) : s'.seg i = s.seg i := by
  unfold State.seg
  rw [hd.cuts.start hw hi, he]

/-- Neighbours stay resolved when an intersection with or of other ones is handled. -/
theorem Settled.detects {ε : K} {P : Finset (Point K)} {s t : State K} {line : List Nat} {p : Point K}
    (hb : Base ε P s line p) {i j : Nat} (hi : i ∈ line) (hj : j ∈ line) (hd : Detects p s i j t)
    {a b : Nat} (ha : a ∈ line) (hbl : b ∈ line) (h : Settled ε s p a b)
    (hs : Same ε (s.seg a) (s.seg b) → (s.lefts a).start = p → (s.lefts b).start = p →
      t.leftEnd a = s.leftEnd a ∧ t.leftEnd b = s.leftEnd b) : Settled ε t p a b := by
  by_cases hn : Same ε (s.seg a) (s.seg b) ∧ (s.lefts a).start = p ∧ (s.lefts b).start = p
  · obtain ⟨e1, e2⟩ := hs hn.1 hn.2.1 hn.2.2
    exact h.congr (hd.seg hb.clock.wf (hb.lt ha) e1) (hd.seg hb.clock.wf (hb.lt hbl) e2)
      (Goes.mono hb.clock hd.cuts.elems) (Goes.mono hb.clock hd.cuts.elems)
  · refine h.cuts hb (hd.cuts.mono ?_) ha hbl hn
    rintro k (rfl | rfl)
    · exact hi
    · exact hj

end Orient.eventsQueue
