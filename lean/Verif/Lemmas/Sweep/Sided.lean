import Verif.Lemmas.Sweep.Position
import Verif.Lemmas.Sweep.Track

/-! The flags of the compound queue are right. -/

set_option linter.unusedSectionVars false

namespace Orient.eventsQueue

variable {K : Type} [Field K] [LinearOrder K] [IsStrictOrderedRing K]

open Segment State

/-! ### what happens to the flags -/

/-- The flags of the pieces are kept, and new pieces have the default ones. -/
structure Kept (s s' : State K) : Prop where
  le : s.nextLeft ≤ s'.nextLeft
  other : ∀ i < s.nextLeft, (s'.lefts i).otherInteriorToLeft = (s.lefts i).otherInteriorToLeft
  kind : ∀ i < s.nextLeft, (s'.lefts i).overlapKind = (s.lefts i).overlapKind
  newOther : ∀ i, s.nextLeft ≤ i → i < s'.nextLeft → (s'.lefts i).otherInteriorToLeft = false
  newKind : ∀ i, s.nextLeft ≤ i → i < s'.nextLeft → (s'.lefts i).overlapKind = .none

theorem Kept.refl (s : State K) : Kept s s :=
  ⟨le_rfl, fun _ _ => rfl, fun _ _ => rfl, fun _ h h' => absurd h' (not_lt.mpr h),
    fun _ h h' => absurd h' (not_lt.mpr h)⟩

theorem Kept.trans {s t u : State K} (h : Kept s t) (h' : Kept t u) : Kept s u := by
  refine ⟨h.le.trans h'.le, fun i hi => (h'.other i (hi.trans_le h.le)).trans (h.other i hi),
    fun i hi => (h'.kind i (hi.trans_le h.le)).trans (h.kind i hi), fun i h1 h2 => ?_, fun i h1 h2 => ?_⟩
  · by_cases hi : i < t.nextLeft
    · exact (h'.other i hi).trans (h.newOther i h1 hi)
    · exact h'.newOther i (not_lt.mp hi) h2
  · by_cases hi : i < t.nextLeft
    · exact (h'.kind i hi).trans (h.newKind i h1 hi)
    · exact h'.newKind i (not_lt.mp hi) h2

theorem divide_kept (s : State K) (i : Nat) (x : Point K) : Kept s (s.divide i x) := by
  have new : ∀ j, s.nextLeft ≤ j → j < (s.divide i x).nextLeft → j = s.nextLeft := fun j h1 h2 =>
    le_antisymm (Nat.lt_succ_iff.mp h2) h1
  refine ⟨Nat.le_succ _, fun j hj => ?_, fun j hj => ?_, fun j h1 h2 => ?_, fun j h1 h2 => ?_⟩
  · simp only [divide, hj.ne, if_false]; split <;> rfl
  · simp only [divide, hj.ne, if_false]; split <;> rfl
  · obtain rfl := new j h1 h2; simp [divide]
  · obtain rfl := new j h1 h2; simp [divide]

theorem divideAt_kept (s : State K) (a b : Nat) (x : Point K) : Kept s (divideAt s a b x) := by
  unfold divideAt
  simp only
  split_ifs
  · exact (divide_kept _ _ _).trans (divide_kept _ _ _)
  · exact divide_kept _ _ _
  · exact divide_kept _ _ _
  · exact .refl _

theorem divideOverlapping_kept (context : Context K) (s : State K) (a b : Nat) :
    Kept s (divideOverlapping context s a b) := by
  unfold divideOverlapping
  simp only
  generalize decide ((s.lefts a).start = (s.lefts b).start) = b1
  generalize decide (s.leftEnd a = s.leftEnd b) = b2
  generalize (b1 || keyLt context s (.left b) (.left a)) = b3
  generalize (b2 || keyLt context s (.right (s.lefts b).right) (.right (s.lefts a).right)) = b4
  split_ifs <;> first
    | exact .refl _
    | exact divide_kept _ _ _
    | exact (divide_kept _ _ _).trans (divide_kept _ _ _)

/-- New pieces lie inside of the divided ones. -/
theorem Cuts.inside {p : Point K} {I : Nat → Prop} {s t : State K} (h : Cuts p I s t) (hw : s.WF)
    (hI : ∀ i, I i → i < s.nextLeft) {q : Nat} (hq : s.nextLeft ≤ q) (hq' : q < t.nextLeft) :
    ∃ i, I i ∧ (t.seg q).pts ⊆ (s.seg i).pts := by
  induction h with
  | refl => exact absurd hq' (not_lt.mpr hq)
  | flags _ h2 ih =>
    rw [h2.shape.seg]
    exact ih (by rw [← h2.shape.nextLeft]; exact hq')
  | @cut t' j x h0 h1 h2 h3 h4 h5 ih =>
    have hw' := h0.elems.wf hw
    rcases Nat.lt_succ_iff_lt_or_eq.mp hq' with h | h
    · obtain ⟨i, hi, hs⟩ := ih h
      exact ⟨i, hi, ((Elem.divide j x h2 h3 h4).elems.runs.seg_subset hw' h).trans hs⟩
    · subst h
      refine ⟨j, h1, ?_⟩
      rw [divide_seg_new hw' h2 x]
      exact (Segment.pts_subset h3.1 (finish_mem _)).trans
        (h0.elems.runs.seg_subset hw (hI j h1))

/-- Two pieces on one line which start together. -/
def Twins (ε : K) (s : State K) (a b : Nat) : Prop :=
  Same ε (s.seg a) (s.seg b) ∧ (s.lefts a).start = (s.lefts b).start

/-- The result of the detection of an intersection in the compound queue. -/
structure Detected (ε : K) (p : Point K) (s : State K) (a b : Nat) (r : State K × Bool) : Prop where
  detects : Detects p s a b r.1
  twins : r.2 = true ↔ Twins ε s a b
  kept : r.2 = false → Kept s r.1
  marked : r.2 = true → Kept (setKind s a b (kindOf s a b)) r.1

section

variable {ε : K} {P : Finset (Point K)} {s : State K}

theorem detected {context : Context K} (hc : context.Exact) (c : Clock ε P s) {a b : Nat}
    (ha : a < s.nextLeft) (hb : b < s.nextLeft) {p : Point K}
    (hp : ∀ z ∈ (s.seg a).pts, z ∈ (s.seg b).pts →
      (s.seg a).Inner z ∨ (s.seg b).Inner z → p ≤ z) {r : State K × Bool}
    (h : detectIntersectionCompound context s a b = .ok r) : Detected ε p s a b r := by
  have hw := c.wf
  have ha' := hw.nondegenerate ha
  have hb' := hw.nondegenerate hb
  have hD := (detectCompound_rel h).detects hc hw ha hb hp
  have over : Twins ε s a b → ((s.seg a).pts ∩ (s.seg b).pts).Nontrivial := by
    rintro ⟨h1, h2⟩
    exact (overlapping_iff hw ha hb).mpr ⟨(c.same_iff ha hb).mp h1, h2 ▸ hw.lt b hb, h2 ▸ hw.lt a ha⟩
  rw [detectIntersectionCompound_eq] at h
  split_ifs at h with h1 h2 h3 h4
  · obtain rfl := Except.ok.inj h
    refine ⟨hD, ?_, fun _ => divideAt_kept _ _ _ _, fun h => Bool.noConfusion h⟩
    refine iff_of_false (by simp) fun ht => ?_
    have := over ht
    rw [inter_of_relation hc ha' hb' h1] at this
    exact Set.not_nontrivial_singleton this
  · obtain rfl := Except.ok.inj h
    refine ⟨hD, iff_of_true rfl ⟨?_, h4⟩, fun h => Bool.noConfusion h,
      fun _ => divideOverlapping_kept _ _ _ _⟩
    exact (c.same_iff ha hb).mpr
      ((overlapping_iff hw ha hb).mp (nontrivial_of_relation hc ha' hb' h1 h2)).1
  · obtain rfl := Except.ok.inj h
    refine ⟨hD, iff_of_false (by simp) fun ht => h4 ht.2, fun _ => divideOverlapping_kept _ _ _ _,
      fun h => Bool.noConfusion h⟩
  · obtain rfl := Except.ok.inj h
    refine ⟨hD, iff_of_false (by simp) fun ht => ?_, fun _ => .refl _, fun h => Bool.noConfusion h⟩
    push Not at h2
    have hr := hc.relation _ _ ha' hb'
    rw [h2] at hr
    have := over ht
    rw [show (s.seg a).pts ∩ (s.seg b).pts = ∅ from hr] at this
    exact Set.not_nontrivial_empty this

end

/-- The handling of a left event in the compound queue. -/
theorem handleCompound_left_ok {context : Context K} {s s' : State K} {line line' : List Nat} {i : Nat}
    (h : handle false context s line (.left i) = .ok (s', line')) :
    line' = sweepLine.add context s i line ∧ ∃ s₁,
      checkAbove context (computePosition s (sweepLine.below context s i line') i) i
        (sweepLine.above context s i line') = .ok s₁ ∧
      checkBelow context s₁ line' (sweepLine.below context s i line') i = .ok s' := by
  change handleCompound context s line (.left i) = _ at h
  simp only [handleCompound, bind, Except.bind, pure, Except.pure] at h
  cases h1 : checkAbove context
      (computePosition s (sweepLine.below context s i (sweepLine.add context s i line)) i) i
      (sweepLine.above context s i (sweepLine.add context s i line)) with
  | error e => rw [h1] at h; simp at h
  | ok s₁ =>
    rw [h1] at h
    simp only at h
    cases h2 : checkBelow context s₁ (sweepLine.add context s i line)
        (sweepLine.below context s i (sweepLine.add context s i line)) i with
    | error e => rw [h2] at h; simp at h
    | ok s₂ =>
      rw [h2] at h
      simp only [Except.ok.injEq, Prod.mk.injEq] at h
      obtain ⟨rfl, rfl⟩ := h
      exact ⟨rfl, s₁, h1, h2⟩

theorem checkAbove_ok {context : Context K} {s s' : State K} {i a : Nat}
    (h : checkAbove context s i (some a) = .ok s') :
    ∃ r, detectIntersectionCompound context s i a = .ok r ∧
      s' = if r.2 then computePosition r.1 (some i) a else r.1 := by
  simp only [checkAbove, bind, Except.bind, pure, Except.pure] at h
  cases hd : detectIntersectionCompound context s i a with
  | error e => rw [hd] at h; cases h
  | ok r => rw [hd] at h; exact ⟨r, rfl, (Except.ok.inj h).symm⟩

theorem checkBelow_ok {context : Context K} {s s' : State K} {line : List Nat} {b i : Nat}
    (h : checkBelow context s line (some b) i = .ok s') :
    ∃ r, detectIntersectionCompound context s b i = .ok r ∧
      s' = if r.2 then computePosition r.1 (sweepLine.below context r.1 b line) b else r.1 := by
  simp only [checkBelow, bind, Except.bind, pure, Except.pure] at h
  cases hd : detectIntersectionCompound context s b i with
  | error e => rw [hd] at h; cases h
  | ok r => rw [hd] at h; exact ⟨r, rfl, (Except.ok.inj h).symm⟩

theorem computePosition_other (s : State K) (below : Option Nat) (i j : Nat) :
    ((computePosition s below i).lefts j).otherInteriorToLeft =
      if j = i then below.elim (s.lefts i).otherInteriorToLeft (fun b => positionOf s b i)
      else (s.lefts j).otherInteriorToLeft := by
  cases below with
  | none =>
    split
    · next h => rw [h]; rfl
    · rfl
  | some b =>
    rw [computePosition_some]
    simp only [setLeft]
    split <;> rfl

theorem computePosition_kind (s : State K) (below : Option Nat) (i j : Nat) :
    ((computePosition s below i).lefts j).overlapKind = (s.lefts j).overlapKind := by
  cases below with
  | none => rfl
  | some b =>
    rw [computePosition_some]
    simp only [setLeft]
    split <;> rfl

theorem setKind_other (s : State K) (a b : Nat) (k : OverlapKind) (i : Nat) :
    ((setKind s a b k).lefts i).otherInteriorToLeft = (s.lefts i).otherInteriorToLeft := by
  simp only [setKind, setLeft]
  split <;> split <;> rfl

theorem setKind_kind (s : State K) (a b : Nat) (k : OverlapKind) (i : Nat) :
    ((setKind s a b k).lefts i).overlapKind =
      if i = a ∨ i = b then k else (s.lefts i).overlapKind := by
  simp only [setKind, setLeft]
  by_cases h1 : i = b
  · simp [h1]
  · by_cases h2 : i = a
    · simp [h2]
    · simp [h1, h2]

/-! ### the invariant -/

/-- The flag of a handled piece of the operand `b` is right: that of a goal piece as soon as there is
no queued piece along it. -/
def Sided (ε : K) (P : Finset (Point K)) (s₀ s : State K) (b : Bool) : Prop :=
  ∀ i < s.nextLeft, Ev.left i ∉ s.queue → (s.lefts i).fromTest = b →
    (b = false → ∀ q, Ev.left q ∈ s.queue → ¬ Twins ε s i q) → FlagOK ε P s₀ s i

/-- The kinds of overlap are right. -/
structure Kinds (ε : K) (s : State K) : Prop where
  queued : ∀ i, Ev.left i ∈ s.queue → (s.lefts i).otherInteriorToLeft = false ∧
    (s.lefts i).overlapKind = .none
  twin : ∀ i < s.nextLeft, (s.lefts i).overlapKind ≠ .none →
    ∃ j < s.nextLeft, Ev.left j ∉ s.queue ∧ (s.lefts i).fromTest ≠ (s.lefts j).fromTest ∧ Twins ε s i j
  kind : ∀ i < s.nextLeft, ∀ j < s.nextLeft, Ev.left i ∉ s.queue → Ev.left j ∉ s.queue →
    (s.lefts i).fromTest ≠ (s.lefts j).fromTest → Twins ε s i j →
    (s.lefts i).overlapKind = kindOf s i j

theorem kindOf_comm (s : State K) (i j : Nat) : kindOf s i j = kindOf s j i := by
  unfold kindOf
  by_cases h : (s.lefts j).interiorToLeft = (s.lefts i).interiorToLeft
  · rw [if_pos h, if_pos h.symm]
  · rw [if_neg h, if_neg (fun e => h e.symm)]

theorem kindOf_ne_none (s : State K) (i j : Nat) : kindOf s i j ≠ .none := by
  unfold kindOf; split <;> simp

theorem Twins.symm {ε : K} {s : State K} {a b : Nat} (h : Twins ε s a b) : Twins ε s b a :=
  ⟨h.1.symm, h.2.symm⟩

theorem FlagOK.congr {ε : K} {P : Finset (Point K)} {s₀ s s' : State K} {i : Nat}
    (h : FlagOK ε P s₀ s i) (h1 : (s'.lefts i).start = (s.lefts i).start)
    (h2 : (s'.lefts i).fromTest = (s.lefts i).fromTest)
    (h3 : (s'.lefts i).otherInteriorToLeft = (s.lefts i).otherInteriorToLeft)
    (h4 : Same ε (s.seg i) (s'.seg i)) : FlagOK ε P s₀ s' i := by
  intro t ht
  rw [h1] at ht
  rw [h2, h3, ← h4.at]
  exact h t ht

theorem Elems.twins {ε : K} {P : Finset (Point K)} {s s' : State K} (c : Clock ε P s)
    (h : Elems s s') {i j : Nat} (hi : i < s.nextLeft) (hj : j < s.nextLeft) :
    Twins ε s' i j ↔ Twins ε s i j := by
  unfold Twins
  rw [c.same_congr h hi hj, (show (s'.lefts i).start = _ from (h.evStart c.wf (e := .left i) hi).1),
    (show (s'.lefts j).start = _ from (h.evStart c.wf (e := .left j) hj).1)]
  rfl

theorem Elem.interiorToLeft {s s' : State K} (h : Elem s s') {i : Nat} (hi : i < s.nextLeft) :
    (s'.lefts i).interiorToLeft = (s.lefts i).interiorToLeft := by
  cases h with
  | flags h _ => exact h.interiorToLeft i
  | relation h => exact h.shape.interiorToLeft i
  | divide j x _ _ _ => simp only [divide, hi.ne, if_false]; split <;> rfl

theorem Elems.interiorToLeft {s s' : State K} (h : Elems s s') {i : Nat} (hi : i < s.nextLeft) :
    (s'.lefts i).interiorToLeft = (s.lefts i).interiorToLeft := by
  induction h with
  | refl => rfl
  | tail h1 h2 ih => exact (Elem.interiorToLeft h2 (hi.trans_le h1.nextLeft_le.1)).trans ih

section

variable {ε : K} {P : Finset (Point K)} {s t : State K} {line : List Nat} {p : Point K}

theorem Base.allBelow {context : Context K} (hc : context.Exact) {l₁ l₂ : List Nat} {i : Nat}
    (hb : Base ε P s (l₁ ++ i :: l₂) p) : sweepLine.AllBelow context s i l₁ := by
  intro n hn
  have hi : i ∈ l₁ ++ i :: l₂ := by simp
  have hn' : n ∈ l₁ ++ i :: l₂ := List.mem_append_left _ hn
  have hne : n ≠ i := by
    rintro rfl
    exact (List.nodup_append.mp hb.nodup).2.2 n hn n (List.mem_cons_self ..) rfl
  have hk := (List.pairwise_append.mp hb.key).2.2 n hn i (List.mem_cons_self ..)
  exact (hb.clock.lt_of_key hc (hb.lt hn') (hb.lt hi) hne ((hb.start_le hi).trans (hb.le_end hn'))
    ((hb.start_le hn').trans (hb.le_end hi)) hk).symm

/-- What the handling of a left event does to the flags. -/
inductive LeftFlags (ε : K) (p : Point K) (t s' : State K) (k : Nat) (l₁ l₂ : List Nat) : Prop
  | alone (no : ∀ i ∈ l₁ ++ l₂, ¬ Twins ε t i k)
      (kept : Kept (computePosition t l₁.getLast? k) s') : LeftFlags ε p t s' k l₁ l₂
  | above (a : Nat) (l₃ : List Nat) (u : State K) (eq : l₂ = a :: l₃) (twins : Twins ε t k a)
      (hk : (t.lefts k).fromTest = true) (ha : (t.lefts a).fromTest = false)
      (detects : Detects p (computePosition t l₁.getLast? k) k a u)
      (marked : Kept (setKind (computePosition t l₁.getLast? k) k a (kindOf t k a)) u)
      (elems : Elems (computePosition u (some k) a) s')
      (kept : Kept (computePosition u (some k) a) s') : LeftFlags ε p t s' k l₁ l₂
  | below (b : Nat) (l₃ : List Nat) (t₁ u : State K) (eq : l₁ = l₃ ++ [b]) (twins : Twins ε t b k)
      (hb : (t.lefts b).fromTest = true) (hk : (t.lefts k).fromTest = false)
      (cuts : Cuts p (fun i => i = k ∨ l₂.head? = some i) (computePosition t l₁.getLast? k) t₁)
      (kept : Kept (computePosition t l₁.getLast? k) t₁)
      (detects : Detects p t₁ b k u)
      (marked : Kept (setKind t₁ b k (kindOf t b k)) u)
      (eq' : s' = computePosition u l₃.getLast? b) : LeftFlags ε p t s' k l₁ l₂

theorem kindOf_congr {s s' : State K} {i j : Nat}
    (hi : (s'.lefts i).interiorToLeft = (s.lefts i).interiorToLeft)
    (hj : (s'.lefts j).interiorToLeft = (s.lefts j).interiorToLeft) : kindOf s' i j = kindOf s i j := by
  unfold kindOf; rw [hi, hj]

theorem Inserted.leftFlags {context : Context K} (hc : context.Exact) {k : Nat} {l₁ l₂ : List Nat}
    (ins : Inserted ε P context s t line p k l₁ l₂) {s' : State K} {line' : List Nat}
    (h : handle false context t line (.left k) = .ok (s', line')) :
    line' = l₁ ++ k :: l₂ ∧ LeftFlags ε p t s' k l₁ l₂ := by
  obtain ⟨e0, t₁, h1, h2⟩ := handleCompound_left_ok h
  rw [ins.add] at e0
  rw [e0, ins.above, ins.below] at h1
  rw [e0, ins.below] at h2
  subst e0
  refine ⟨rfl, ?_⟩
  have f0 := computePosition_flags t l₁.getLast? k
  obtain ⟨t₀, ht₀⟩ : ∃ t₀, t₀ = computePosition t l₁.getLast? k := ⟨_, rfl⟩
  rw [← ht₀] at f0 h1
  have hb0 := ins.base.shape f0.shape
  have c0 := hb0.clock
  have hkm : k ∈ l₁ ++ k :: l₂ := by simp
  have hk := hb0.lt hkm
  have start0 : (t₀.lefts k).start = p := (f0.shape.start k).trans ins.start
  have e0 : Elems t t₀ := (Elem.flags f0.shape f0.relation).elems
  have tw0 : ∀ i j, Twins ε t₀ i j ↔ Twins ε t i j := by
    intro i j; unfold Twins; rw [f0.shape.seg, f0.shape.seg, f0.shape.start, f0.shape.start]
  have nd := List.nodup_cons.mp (List.nodup_middle.mp ins.base.nodup)
  have srt := List.pairwise_append.mp ins.sorted
  have srt2 := List.pairwise_cons.mp srt.2.1
  -- twins below and above
  have twin1 : ∀ i ∈ l₁, Twins ε t i k → Cls ε t i k := fun i hi ht =>
    (srt.2.2 i hi k (List.mem_cons_self ..)).resolve_right fun ha => ha.not_same ht.1
  have twin2 : ∀ i ∈ l₂, Twins ε t i k → Cls ε t k i := fun i hi ht =>
    (srt2.1 i hi).resolve_right fun ha => ha.not_same ht.1.symm
  have last1 : ∀ i ∈ l₁, Twins ε t i k → l₁.getLast? = some i := by
    intro i hi ht
    obtain ⟨m1, m2, rfl⟩ := List.append_of_mem hi
    cases m2 with
    | nil => simp
    | cons x m2 =>
      exfalso
      have hx : x ∈ m1 ++ i :: x :: m2 := by simp
      have a1 := srt.2.2 x hx k (List.mem_cons_self ..)
      have a2 := (List.pairwise_cons.mp (List.pairwise_append.mp srt.1).2.1).1 x (List.mem_cons_self ..)
      exact (Aft.strict a2 a1).not_same ht.1
  have head2 : ∀ i ∈ l₂, Twins ε t i k → l₂.head? = some i := by
    intro i hi ht
    obtain ⟨l₃, rfl⟩ := adjacent (l₁ := l₁) ins.sorted hi ht.1.symm
    rfl
  -- the check of the neighbour below, if it is not a twin
  have belowNo : ∀ t₁ : State K, Base ε P t₁ (l₁ ++ k :: l₂) p → Elems t t₁ →
      (∀ i ∈ l₁, ¬ Twins ε t i k) →
      checkBelow context t₁ (l₁ ++ k :: l₂) l₁.getLast? k = .ok s' → Elems t₁ s' ∧ Kept t₁ s' := by
    intro t₁ hb1 e1 hno h2
    cases hl : l₁.getLast? with
    | none =>
      rw [hl] at h2
      obtain rfl := Except.ok.inj h2
      exact ⟨.refl _, .refl _⟩
    | some b =>
      rw [hl] at h2
      have hbm : b ∈ l₁ := List.mem_of_getLast? hl
      obtain ⟨r, hd, rfl⟩ := checkBelow_ok h2
      have hbn := hb1.lt (List.mem_append_left _ hbm : b ∈ l₁ ++ k :: l₂)
      have hkn := hb1.lt hkm
      have D := detected hc hb1.clock hbn hkn (p := p) (fun z _ hz _ => by
        have := hb1.clock.start_le hkn hz
        rwa [(show (t₁.lefts k).start = _ from
          (e1.evStart ins.base.clock.wf (e := .left k) (ins.base.lt hkm)).1.trans ins.start)] at this) hd
      have hf : r.2 = false := by
        cases hr : r.2 with
        | false => rfl
        | true =>
          refine absurd ?_ (hno b hbm)
          exact (Elems.twins ins.base.clock e1 (ins.base.lt (List.mem_append_left _ hbm))
            (ins.base.lt hkm)).mp (D.twins.mp hr)
      rw [hf]
      exact ⟨D.detects.cuts.elems, D.kept hf⟩
  by_cases ha : ∃ a ∈ l₂, Twins ε t a k
  · -- a twin above
    obtain ⟨a, ham, hta⟩ := ha
    obtain ⟨-, fk, fa⟩ := twin2 a ham hta
    have hh := head2 a ham hta
    rw [hh] at h1
    obtain ⟨r, hd, e1⟩ := checkAbove_ok h1
    have han := hb0.lt (List.mem_append_right l₁ (List.mem_cons_of_mem k ham))
    have D := detected hc c0 hk han (p := p) (fun z hz _ _ => by
      have := c0.start_le hk hz
      rwa [start0] at this) hd
    have hr : r.2 = true := D.twins.mpr ((tw0 _ _).mpr hta.symm)
    rw [hr, if_pos rfl] at e1
    have fl := computePosition_flags r.1 (some k) a
    have cuts1 : Cuts p (· ∈ l₁ ++ k :: l₂) t t₁ := by
      rw [e1]
      refine ((((Cuts.refl t).flags f0).trans (D.detects.cuts.mono ?_)).flags fl)
      rintro i (rfl | rfl)
      · exact hkm
      · exact List.mem_append_right l₁ (List.mem_cons_of_mem k ham)
    obtain ⟨l₃, hl₃⟩ : ∃ l₃, l₂ = a :: l₃ := by
      cases l₂ with
      | nil => cases hh
      | cons x l₃ => exact ⟨l₃, by rw [Option.some.inj hh]⟩
    obtain ⟨e2, k2⟩ := belowNo t₁ (ins.base.cuts cuts1) cuts1.elems (fun i hi hti => by
      have := (twin1 i hi hti).2.2
      rw [fk] at this; cases this) h2
    rw [e1] at e2 k2
    rw [ht₀] at D
    refine .above a l₃ r.1 hl₃ hta.symm fk fa D.detects ?_ e2 k2
    have := D.marked hr
    rwa [kindOf_congr (f0.shape.interiorToLeft k |> fun e => ht₀ ▸ e)
      (f0.shape.interiorToLeft a |> fun e => ht₀ ▸ e)] at this
  · push Not at ha
    -- the check of the neighbour above
    have A : Cuts p (fun i => i = k ∨ l₂.head? = some i) t₀ t₁ ∧ Kept t₀ t₁ := by
      cases hh : l₂.head? with
      | none =>
        rw [hh] at h1
        obtain rfl := Except.ok.inj h1
        exact ⟨.refl _, .refl _⟩
      | some a =>
        rw [hh] at h1
        have ham : a ∈ l₂ := List.mem_of_mem_head? hh
        obtain ⟨r, hd, e1⟩ := checkAbove_ok h1
        have han := hb0.lt (List.mem_append_right l₁ (List.mem_cons_of_mem k ham))
        have D := detected hc c0 hk han (p := p) (fun z hz _ _ => by
          have := c0.start_le hk hz
          rwa [start0] at this) hd
        have hr : r.2 = false := by
          cases hr : r.2 with
          | false => rfl
          | true => exact absurd ((tw0 _ _).mp (D.twins.mp hr)).symm (ha a ham)
        rw [hr, if_neg (by simp)] at e1
        rw [e1]
        refine ⟨D.detects.cuts.mono ?_, D.kept hr⟩
        rintro i (rfl | rfl)
        · exact .inl rfl
        · exact .inr rfl
    have cuts1 : Cuts p (· ∈ l₁ ++ k :: l₂) t t₁ := by
      refine ((Cuts.refl t).flags f0).trans (A.1.mono ?_)
      rintro i (rfl | h)
      · exact hkm
      · exact List.mem_append_right l₁ (List.mem_cons_of_mem k (List.mem_of_mem_head? h))
    have hb1 := ins.base.cuts cuts1
    by_cases hb : ∃ b ∈ l₁, Twins ε t b k
    · -- a twin below
      obtain ⟨b, hbm, htb⟩ := hb
      obtain ⟨-, fb, fk⟩ := twin1 b hbm htb
      have hl := last1 b hbm htb
      obtain ⟨l₃, hl₃⟩ := List.getLast?_eq_some_iff.mp hl
      have h2' := h2
      rw [hl] at h2'
      obtain ⟨r, hd, e2⟩ := checkBelow_ok h2'
      have hbn := hb1.lt (List.mem_append_left _ hbm : b ∈ l₁ ++ k :: l₂)
      have hkn := hb1.lt hkm
      have D := detected hc hb1.clock hbn hkn (p := p) (fun z _ hz _ => by
        have := hb1.clock.start_le hkn hz
        rwa [cuts1.start ins.base.clock.wf (ins.base.lt hkm), ins.start] at this) hd
      have hr : r.2 = true := D.twins.mpr ((Elems.twins ins.base.clock cuts1.elems
        (ins.base.lt (List.mem_append_left _ hbm)) (ins.base.lt hkm)).mpr htb)
      rw [hr, if_pos rfl] at e2
      have hbu : Base ε P r.1 (l₁ ++ k :: l₂) p := hb1.cuts (D.detects.cuts.mono (by
        rintro i (rfl | rfl)
        · exact List.mem_append_left _ hbm
        · exact hkm))
      have eql : l₁ ++ k :: l₂ = l₃ ++ b :: (k :: l₂) := by rw [hl₃]; simp
      rw [eql] at e2 hbu
      rw [sweepLine.below_split (Base.allBelow hc hbu)] at e2
      obtain ⟨A1, A2⟩ := A
      rw [ht₀] at A1 A2
      refine .below b l₃ t₁ r.1 hl₃ htb fb fk A1 A2 D.detects ?_ e2
      have := D.marked hr
      have ib : ∀ i ∈ l₁ ++ k :: l₂, (t₁.lefts i).interiorToLeft = (t.lefts i).interiorToLeft :=
        fun i hi => Elems.interiorToLeft cuts1.elems (ins.base.lt hi)
      rwa [kindOf_congr (ib b (List.mem_append_left _ hbm)) (ib k hkm)] at this
    · push Not at hb
      obtain ⟨-, k2⟩ := belowNo t₁ hb1 cuts1.elems hb h2
      refine .alone (fun i hi => ?_) (ht₀ ▸ A.2.trans k2)
      rcases List.mem_append.mp hi with hi | hi
      · exact hb i hi
      · exact ha i hi

end

end Orient.eventsQueue
