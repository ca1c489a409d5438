import Verif.Lemmas.Sweep.Advance

/-! Handling an event keeps the order of the pieces on the sweep line and resolves new neighbours. -/

set_option linter.unusedSectionVars false

namespace Orient.eventsQueue

variable {K : Type} [Field K] [LinearOrder K] [IsStrictOrderedRing K]

open Segment State

theorem lt_shape {s t : State K} (h : SameShape s t) (context : Context K) (i j : Nat) :
    sweepLine.lt context t i j = sweepLine.lt context s i j := by
  unfold sweepLine.lt
  rw [h.start, h.start, h.leftEnd, h.leftEnd, h.fromTest]

section

variable {ε : K} {P : Finset (Point K)} {s t : State K} {l₁ l₂ : List Nat} {p : Point K}

/-! ### pops -/

theorem Base.removed {i r : Nat} (hb : Base ε P s (l₁ ++ i :: l₂) p) (hr : Ev.right r ∈ s.queue)
    (hi : (s.rights r).left = i) (hp : s.evStart (.right r) = p) :
    Base ε P (eventsQueue.popped s (.right r)) (l₁ ++ l₂) p := by
  have hw := hb.clock.wf
  have hv := hw.queueRight r hr
  have mem : ∀ e, e ∈ (eventsQueue.popped s (.right r)).queue ↔ e ≠ .right r ∧ e ∈ s.queue := fun e =>
    List.Nodup.mem_erase_iff hw.nodup
  have sub : (l₁ ++ l₂).Sublist (l₁ ++ i :: l₂) :=
    (List.Sublist.refl l₁).append (List.sublist_cons_self i l₂)
  refine ⟨hb.clock.pop _, hb.mem, hb.nodup.sublist sub, ?_, ?_, ?_, hb.key.sublist sub, hb.past,
    hb.pastSame, hb.pastEnd, fun h => hb.clash h⟩
  · intro j
    have hmem : j ∈ l₁ ++ l₂ ↔ j ∈ l₁ ++ i :: l₂ ∧ j ≠ i := by
      have nd := hb.nodup
      rw [List.nodup_middle, List.nodup_cons] at nd
      constructor
      · intro hj
        exact ⟨sub.subset hj, fun e => nd.1 (e ▸ hj)⟩
      · rintro ⟨hj, hne⟩
        rw [List.mem_append, List.mem_cons] at hj
        rw [List.mem_append]
        exact hj.imp id fun h => h.resolve_left hne
    rw [hmem, hb.active, mem, mem]
    change _ ↔ j < s.nextLeft ∧ ¬ (_ ∧ Ev.left j ∈ s.queue) ∧ Ev.right (s.lefts j).right ≠ _ ∧
      Ev.right (s.lefts j).right ∈ s.queue
    constructor
    · rintro ⟨⟨h1, h2, h3⟩, h4⟩
      refine ⟨h1, fun h => h2 h.2, fun e => h4 ?_, h3⟩
      rw [Ev.right.injEq] at e
      rw [← hi, ← e, (hw.leftRight j h1).2]
    · rintro ⟨h1, h2, h3, h4⟩
      refine ⟨⟨h1, fun h => h2 ⟨by simp, h⟩, h4⟩, fun e => h3 ?_⟩
      rw [e, ← hi, (hw.rightLeft r hv).2]
  · exact fun e he => hb.queue e ((mem e).mp he).2
  · intro e he hn
    by_cases h : e = .right r
    · rw [h]; exact hp.le
    · exact hb.popped e he fun hm => hn ((mem e).mpr ⟨h, hm⟩)

theorem Base.inserted {k : Nat} (hb : Base ε P s (l₁ ++ l₂) p) (hk : Ev.left k ∈ s.queue)
    (hp : (s.lefts k).start = p) (hkey : (l₁ ++ k :: l₂).Pairwise (Key ε s)) :
    Base ε P (eventsQueue.popped s (.left k)) (l₁ ++ k :: l₂) p := by
  have hw := hb.clock.wf
  have hv := hw.queueLeft k hk
  have mem : ∀ e, e ∈ (eventsQueue.popped s (.left k)).queue ↔ e ≠ .left k ∧ e ∈ s.queue := fun e =>
    List.Nodup.mem_erase_iff hw.nodup
  have hnk : k ∉ l₁ ++ l₂ := fun h => ((hb.active k).mp h).2.1 hk
  refine ⟨hb.clock.pop _, hb.mem, ?_, ?_, ?_, ?_, hkey, hb.past, hb.pastSame, hb.pastEnd,
    fun h => hb.clash h⟩
  · rw [List.nodup_middle, List.nodup_cons]
    exact ⟨hnk, hb.nodup⟩
  · intro j
    have hmem : j ∈ l₁ ++ k :: l₂ ↔ j = k ∨ j ∈ l₁ ++ l₂ := by
      simp only [List.mem_append, List.mem_cons]
      constructor
      · rintro (h | h | h)
        · exact .inr (.inl h)
        · exact .inl h
        · exact .inr (.inr h)
      · rintro (h | h | h)
        · exact .inr (.inl h)
        · exact .inl h
        · exact .inr (.inr h)
    rw [hmem, hb.active, mem, mem]
    change _ ↔ j < s.nextLeft ∧ ¬ (Ev.left j ≠ .left k ∧ Ev.left j ∈ s.queue) ∧
      Ev.right (s.lefts j).right ≠ .left k ∧ Ev.right (s.lefts j).right ∈ s.queue
    constructor
    · rintro (rfl | ⟨h1, h2, h3⟩)
      · refine ⟨hv, fun h => h.1 rfl, by simp, ?_⟩
        by_contra hn
        have := hb.popped (.right (s.lefts j).right) (hw.leftRight j hv).1 hn
        exact absurd (hp ▸ hw.lt j hv) (not_lt.mpr this)
      · exact ⟨h1, fun h => h2 h.2, by simp, h3⟩
    · rintro ⟨h1, h2, -, h4⟩
      by_cases hjk : j = k
      · exact .inl hjk
      · exact .inr ⟨h1, fun h => h2 ⟨by simpa using hjk, h⟩, h4⟩
  · exact fun e he => hb.queue e ((mem e).mp he).2
  · intro e he hn
    by_cases h : e = .left k
    · rw [h]; exact hp.le
    · exact hb.popped e he fun hm => hn ((mem e).mpr ⟨h, hm⟩)

theorem Starts.pop_right {r : Nat} {x : Point K} (h : Starts s x) : Starts (eventsQueue.popped s (.right r)) x := by
  obtain ⟨k, hk, e⟩ := h
  exact ⟨k, (List.mem_erase_of_ne (by simp)).mpr hk, e⟩

theorem Starts.pop_left {k : Nat} {x : Point K} (h : Starts s x) (hne : (s.lefts k).start ≠ x) :
    Starts (eventsQueue.popped s (.left k)) x := by
  obtain ⟨j, hj, e⟩ := h
  refine ⟨j, (List.mem_erase_of_ne ?_).mpr hj, e⟩
  rintro ⟨⟩
  exact hne e

theorem Goes.pop_right {r : Nat} {u : Segment K} {x : Point K} (h : Goes ε s u x) :
    Goes ε (eventsQueue.popped s (.right r)) u x := by
  obtain ⟨k, hk, e⟩ := h
  exact ⟨k, (List.mem_erase_of_ne (by simp)).mpr hk, e⟩

theorem Goes.pop_left {k : Nat} {u : Segment K} {x : Point K} (h : Goes ε s u x)
    (hne : (s.lefts k).start ≠ x) : Goes ε (eventsQueue.popped s (.left k)) u x := by
  obtain ⟨j, hj, e⟩ := h
  refine ⟨j, (List.mem_erase_of_ne ?_).mpr hj, e⟩
  rintro ⟨⟩
  exact hne e.1

/-! ### an insertion -/

/-- Other neighbours stay resolved when an inserted piece is. -/
theorem Settled.inserting {line : List Nat} (hb : Base ε P s line p) {k a : Nat} (hk : k ∈ line)
    (ha : a ∈ line) (hka : k ≠ a) (hp : (s.lefts k).start = p) (hd : Detects p s k a t) {x y : Nat}
    (hx : x ∈ line) (hy : y ∈ line) (hxy : x ≠ y) (hxk : x ≠ k) (hyk : y ≠ k)
    (h : Settled ε s p x y) : Settled ε t p x y := by
  refine h.detects hb hk ha hd hx hy fun hs e1 e2 => ?_
  have hw := hb.clock.wf
  have key : ∀ z w, z ∈ line → w ∈ line → z ≠ w → z ≠ k → w ≠ k → Same ε (s.seg z) (s.seg w) →
      (s.lefts z).start = p → (s.lefts w).start = p → t.leftEnd z = s.leftEnd z := by
    intro z w hz hw' hzw hzk hwk hs e1 e2
    by_cases hza : z = a
    · subst hza
      refine (Detects.same_start hb.clock (hb.lt hk) (hb.lt hz) (fun hs' => ?_) (hp.trans e1.symm)
        hd).2
      exact hb.noTriple (hb.lt hk) (hb.lt hz) (hb.lt hw') hzk.symm hwk.symm hzw hs' (hs'.trans hs)
        (hp.trans e1.symm) (hp.trans e2.symm)
    · exact congrArg Segment.finish (hd.cuts.seg hw (hb.lt hz) (by rintro (h | h); exacts [hzk h, hza h]))
  exact ⟨key x y hx hy hxy hxk hyk hs e1 e2, key y x hy hx hxy.symm hyk hxk hs.symm e2 e1⟩

theorem Settled.inserting_flags {x y : Nat} (h : Settled ε s p x y) (hf : Flags s t) :
    Settled ε t p x y := h.shape hf.shape

/-- What the check of the upper neighbour of an inserted piece gives. -/
structure Above (ε : K) (s t : State K) (p : Point K) (line : List Nat) (k : Nat) (above : Option Nat) :
    Prop where
  cuts : Cuts p (fun i => i = k ∨ above = some i) s t
  others : ∀ x ∈ line, ∀ y ∈ line, x ≠ y → x ≠ k → y ≠ k → Settled ε s p x y → Settled ε t p x y
  settled : ∀ a, above = some a → Settled ε t p k a
  equal : ∀ a, above = some a → Same ε (s.seg k) (s.seg a) → (s.lefts a).start = p →
    t.leftEnd k = t.leftEnd a

theorem checkAbove_above {context : Context K} (hc : context.Exact) {line : List Nat}
    (hb : Base ε P s line p) {k : Nat} (hk : k ∈ line) (hp : (s.lefts k).start = p)
    {above : Option Nat} (hab : ∀ a, above = some a → a ∈ line ∧ k ≠ a ∧ p < s.leftEnd a)
    (h : CheckAbove context s k above t) : Above ε s t p line k above := by
  have hw := hb.clock.wf
  have hkn := hb.lt hk
  unfold CheckAbove at h
  cases above with
  | none =>
    have h : Flags s t := h
    exact ⟨(Cuts.refl s).flags h, fun x _ y _ _ _ _ hs => hs.inserting_flags h, by simp, by simp⟩
  | some a =>
    have h : DetectRel context s k a t := h
    obtain ⟨ha, hka, hend⟩ := hab a rfl
    have han := hb.lt ha
    have hd : Detects p s k a t := h.detects hc hw hkn han fun z hz _ _ =>
      hp ▸ hb.clock.start_le hkn hz
    have same : Same ε (s.seg k) (s.seg a) → Overlapping s k a := fun hs =>
      ⟨(hb.clock.same_iff hkn han).mp hs, hp ▸ hend,
        (hb.start_le ha).trans_lt (hp ▸ hw.lt k hkn)⟩
    have startk := hd.cuts.start hw hkn
    have starta := hd.cuts.start hw han
    have equal : Same ε (s.seg k) (s.seg a) → (s.lefts a).start = p → t.leftEnd k = t.leftEnd a :=
      fun hs e => hd.equal (same hs) (hp.trans e.symm)
    refine ⟨hd.cuts.mono ?_, ?_, ?_, ?_⟩
    · rintro i (rfl | rfl)
      · exact .inl rfl
      · exact .inr rfl
    · intro x hx y hy hxy hxk hyk hs
      exact hs.inserting hb hk ha hka hp hd hx hy hxy hxk hyk
    · rintro _ ⟨⟩
      refine ⟨fun hn => hd.cross fun hcol => hn ?_, fun hs => ?_⟩
      · rw [hb.clock.same_congr hd.cuts.elems hkn han]
        exact (hb.clock.same_iff hkn han).mpr hcol
      · have hs := (hb.clock.same_congr hd.cuts.elems hkn han).mp hs
        rcases (hb.start_le ha).eq_or_lt with e | e
        · left
          exact ⟨by rw [startk, starta, hp, e], .inl (equal hs e)⟩
        · right; right
          rw [startk]
          exact hd.greater (same hs) (hp ▸ e)
    · rintro _ ⟨⟩
      exact equal

theorem CheckBelow.above {context : Context K} {below : Option Nat} {k : Nat}
    (h : CheckBelow context s below k t) : below = none ∧ Flags s t ∨
      ∃ b, below = some b ∧ DetectRel context s b k t := by
  unfold CheckBelow at h
  cases below with
  | none => exact .inl ⟨rfl, h⟩
  | some b => exact .inr ⟨b, rfl, h⟩

/-- What the check of the lower neighbour of an inserted piece gives. -/
theorem checkBelow_above {context : Context K} (hc : context.Exact) {line : List Nat}
    (hb : Base ε P s line p) {k : Nat} (hk : k ∈ line) (hp : (s.lefts k).start = p)
    {below : Option Nat} (hab : ∀ a, below = some a → a ∈ line ∧ k ≠ a ∧ p < s.leftEnd a)
    (h : CheckBelow context s below k t) :
    Cuts p (fun i => i = k ∨ below = some i) s t ∧
    (∀ x ∈ line, ∀ y ∈ line, x ≠ y → x ≠ k → y ≠ k → Settled ε s p x y → Settled ε t p x y) ∧
    (∀ b, below = some b → Settled ε t p b k) ∧
    (∀ b, below = some b → Detects p s k b t) := by
  have hw := hb.clock.wf
  have hkn := hb.lt hk
  rcases h.above with ⟨rfl, h⟩ | ⟨a, rfl, h⟩
  · exact ⟨(Cuts.refl s).flags h, fun x _ y _ _ _ _ hs => hs.inserting_flags h, by simp, by simp⟩
  · obtain ⟨ha, hka, hend⟩ := hab a rfl
    have han := hb.lt ha
    have hd : Detects p s a k t := h.detects hc hw han hkn fun z _ hz _ =>
      hp ▸ hb.clock.start_le hkn hz
    have hd' := hd.symm hw han hkn
    have same : Same ε (s.seg a) (s.seg k) → Overlapping s a k := fun hs =>
      ⟨(hb.clock.same_iff han hkn).mp hs, (hb.start_le ha).trans_lt (hp ▸ hw.lt k hkn), hp ▸ hend⟩
    have startk := hd.cuts.start hw hkn
    have starta := hd.cuts.start hw han
    refine ⟨hd.cuts.mono ?_, ?_, ?_, ?_⟩
    · rintro i (rfl | rfl)
      · exact .inr rfl
      · exact .inl rfl
    · intro x hx y hy hxy hxk hyk hs
      exact hs.inserting hb hk ha hka hp hd' hx hy hxy hxk hyk
    · rintro _ ⟨⟩
      refine ⟨fun hn => hd.cross fun hcol => hn ?_, fun hs => ?_⟩
      · rw [hb.clock.same_congr hd.cuts.elems han hkn]
        exact (hb.clock.same_iff han hkn).mpr hcol
      · have hs := (hb.clock.same_congr hd.cuts.elems han hkn).mp hs
        rcases (hb.start_le ha).eq_or_lt with e | e
        · left
          exact ⟨by rw [startk, starta, hp, e], .inl (hd.equal (same hs) (e.trans hp.symm))⟩
        · right; left
          rw [startk]
          exact hd.less (same hs) (hp ▸ e)
    · rintro _ ⟨⟩
      exact hd'

/-- The neighbours of an inserted piece are resolved. -/
theorem Base.settle {context : Context K} (hc : context.Exact) {k : Nat}
    (hb : Base ε P s (l₁ ++ k :: l₂) p) (hp : (s.lefts k).start = p)
    (hch : (l₁ ++ l₂).IsChain (Settled ε s p)) (he : ∀ i ∈ l₁ ++ l₂, p < s.leftEnd i)
    {u : State K} (h1 : CheckAbove context s k l₂.head? t) (h2 : CheckBelow context t l₁.getLast? k u) :
    Cuts p (· ∈ l₁ ++ k :: l₂) s u ∧ (l₁ ++ k :: l₂).IsChain (Settled ε u p) := by
  have hw := hb.clock.wf
  have nd := hb.nodup
  have hkm : k ∈ l₁ ++ k :: l₂ := by simp
  have m1 : ∀ i ∈ l₁, i ∈ l₁ ++ k :: l₂ := fun i hi => List.mem_append_left _ hi
  have m2 : ∀ i ∈ l₂, i ∈ l₁ ++ k :: l₂ := fun i hi =>
    List.mem_append_right _ (List.mem_cons_of_mem _ hi)
  have nk : k ∉ l₁ ++ l₂ := (List.nodup_cons.mp (List.nodup_middle.mp nd)).1
  have nd' : (l₁ ++ l₂).Nodup := (List.nodup_cons.mp (List.nodup_middle.mp nd)).2
  have n1 : ∀ i ∈ l₁, i ≠ k := fun i hi e => nk (e ▸ List.mem_append_left _ hi)
  have n2 : ∀ i ∈ l₂, i ≠ k := fun i hi e => nk (e ▸ List.mem_append_right _ hi)
  have hd : ∀ a, l₂.head? = some a → a ∈ l₂ := fun a ha => List.mem_of_mem_head? ha
  have hl : ∀ b, l₁.getLast? = some b → b ∈ l₁ := fun b hb => List.mem_of_mem_getLast? hb
  have n12 : ∀ i ∈ l₁, ∀ j ∈ l₂, i ≠ j := fun i hi j hj =>
    (List.nodup_append.mp nd').2.2 i hi j hj
  have A := checkAbove_above hc hb hkm hp
    (fun a ha => ⟨m2 a (hd a ha), (n2 a (hd a ha)).symm, he a (List.mem_append_right _ (hd a ha))⟩) h1
  have cutsA : Cuts p (· ∈ l₁ ++ k :: l₂) s t := A.cuts.mono (by
    rintro i (rfl | h)
    · exact hkm
    · exact m2 i (hd i h))
  have hbt := hb.cuts cutsA
  have startk : (t.lefts k).start = p := (cutsA.start hw (hb.lt hkm)).trans hp
  have endL : ∀ i ∈ l₁, t.seg i = s.seg i := fun i hi =>
    A.cuts.seg hw (hb.lt (m1 i hi)) (by
      rintro (h | h)
      · exact n1 i hi h
      · exact n12 i hi i (hd i h) rfl)
  obtain ⟨B1, B2, B3, B4⟩ := checkBelow_above hc hbt hkm startk
    (fun b hb' => ⟨m1 b (hl b hb'), (n1 b (hl b hb')).symm, by
      have e : t.leftEnd b = s.leftEnd b := congrArg Segment.finish (endL b (hl b hb'))
      rw [e]; exact he b (List.mem_append_left _ (hl b hb'))⟩) h2
  have cutsB : Cuts p (· ∈ l₁ ++ k :: l₂) t u := B1.mono (by
    rintro i (rfl | h)
    · exact hkm
    · exact m1 i (hl i h))
  refine ⟨cutsA.trans cutsB, ?_⟩
  -- the old neighbours stay resolved
  have old : (l₁ ++ l₂).IsChain (Settled ε t p) := by
    refine List.IsChain.imp_of_mem_imp ?_ (isChain_and hch nd'.isChain)
    rintro x y hx hy ⟨h, hne⟩
    have mx : ∀ x, x ∈ l₁ ++ l₂ → x ∈ l₁ ++ k :: l₂ ∧ x ≠ k := by
      intro x hx
      rcases List.mem_append.mp hx with hx | hx
      · exact ⟨m1 x hx, n1 x hx⟩
      · exact ⟨m2 x hx, n2 x hx⟩
    exact A.others x (mx x hx).1 y (mx y hy).1 hne (mx x hx).2 (mx y hy).2 h
  have new : (l₁ ++ l₂).IsChain (Settled ε u p) := by
    refine List.IsChain.imp_of_mem_imp ?_ (isChain_and old nd'.isChain)
    rintro x y hx hy ⟨h, hne⟩
    have mx : ∀ x, x ∈ l₁ ++ l₂ → x ∈ l₁ ++ k :: l₂ ∧ x ≠ k := by
      intro x hx
      rcases List.mem_append.mp hx with hx | hx
      · exact ⟨m1 x hx, n1 x hx⟩
      · exact ⟨m2 x hx, n2 x hx⟩
    exact B2 x (mx x hx).1 y (mx y hy).1 hne (mx x hx).2 (mx y hy).2 h
  rw [List.isChain_append] at old new ⊢
  refine ⟨new.1, List.isChain_cons.mpr ⟨fun a ha => ?_, new.2.1⟩, ?_⟩
  · -- the upper neighbour after the check of the lower one
    have ham := hd a ha
    have hkn := hbt.lt hkm
    have han := hbt.lt (m2 a ham)
    cases hbel : l₁.getLast? with
    | none =>
      rcases h2.above with ⟨-, hf⟩ | ⟨b, hb', -⟩
      · exact (A.settled a ha).shape hf.shape
      · rw [hbel] at hb'; cases hb'
    | some b =>
      have hbm := hl b hbel
      have hdet := B4 b hbel
      have hbn := hbt.lt (m1 b hbm)
      refine (A.settled a ha).detects hbt hkm (m1 b hbm) hdet hkm (m2 a ham) fun hs e1 e2 => ?_
      -- the pieces start together on one line
      have hs0 := (hb.clock.same_congr cutsA.elems (hb.lt hkm) (hb.lt (m2 a ham))).mp hs
      have e20 : (s.lefts a).start = p := (cutsA.start hw (hb.lt (m2 a ham))).symm.trans e2
      have eqE := A.equal a ha hs0 e20
      have eqS : t.seg k = t.seg a := by
        unfold State.seg; rw [e1, e2, eqE]
      have hba : Settled ε t p b a := old.2.2 b hbel a ha
      have hEb : p < t.leftEnd b := by
        have e : t.leftEnd b = s.leftEnd b := congrArg Segment.finish (endL b hbm)
        rw [e]; exact he b (List.mem_append_left _ hbm)
      have hnS : ¬ Same ε (t.seg b) (t.seg k) := by
        intro hbk
        rcases (hbt.start_le (m1 b hbm)).eq_or_lt with e | e
        · exact hbt.noTriple hkn han hbn (n2 a ham).symm (n1 b hbm).symm (n12 b hbm a ham).symm hs
            hbk.symm (e1.trans e2.symm) (e1.trans e.symm)
        · rcases hba.same (hbk.trans hs) with h | h | h
          · rw [h.1, e2] at e; exact lt_irrefl _ e
          · rw [h, e2] at hEb; exact lt_irrefl _ hEb
          · have := hbt.le_end (m2 a ham)
            rw [h] at this
            exact absurd e (not_lt.mpr this)
      have hka : u.leftEnd k = t.leftEnd k := by
        rcases hdet.first with h | ⟨h3, h4⟩
        · exact h
        · exfalso
          have h5 := h3.1
          rw [eqS] at h5
          have := (hba.cross (fun h => hnS (by rw [eqS]; exact h)) _ h4 h5).2
          rw [← eqS] at this
          exact h3.2 this
      refine ⟨hka, ?_⟩
      exact congrArg Segment.finish (hdet.cuts.seg hbt.clock.wf han (by
        rintro (h | h)
        · exact n2 a ham h
        · exact n12 b hbm a ham h.symm))
  · intro b hb' y hy
    have : y = k := by simpa using hy.symm
    rw [this]
    exact B3 b hb'

end

end Orient.eventsQueue
