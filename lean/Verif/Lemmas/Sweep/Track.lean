import Verif.Lemmas.Sweep.Told

/-! A sweep finds all the common points of the operands. -/

set_option linter.unusedSectionVars false

namespace Orient.eventsQueue

variable {K : Type} [Field K] [LinearOrder K] [IsStrictOrderedRing K]

open Segment State

theorem Cuts.relation {p : Point K} {I : Nat → Prop} {s t : State K} (h : Cuts p I s t) (hw : s.WF)
    {i : Nat} (hi : i < s.nextLeft) : (t.lefts i).relation = (s.lefts i).relation := by
  induction h with
  | refl => rfl
  | flags _ h2 ih => rw [h2.relation]; exact ih
  | cut k x h1 _ h3 _ _ _ ih =>
    have hw' := h1.elems.wf hw
    have hi' := lt_of_lt_of_le hi h1.elems.nextLeft_le.1
    by_cases hik : i = k
    · subst hik
      rw [divide_lefts_self hw' hi']; exact ih
    · rw [divide_lefts_other hw' h3 x hi' hik]; exact ih

/-- Pieces on one line are next to each other. -/
theorem adjacent {ε T : K} {s : State K} {l₁ l₂ : List Nat} {i j : Nat}
    (h : (l₁ ++ i :: l₂).Pairwise (Aft ε s T)) (hj : j ∈ l₂) (hs : Same ε (s.seg i) (s.seg j)) :
    ∃ l₃, l₂ = j :: l₃ := by
  have h := (List.pairwise_append.mp h).2.1
  rw [List.pairwise_cons] at h
  cases l₂ with
  | nil => cases hj
  | cons m l₃ =>
    rcases List.mem_cons.mp hj with rfl | hj
    · exact ⟨l₃, rfl⟩
    · have h1 := h.1 m (List.mem_cons_self ..)
      have h2 := (List.pairwise_cons.mp h.2).1 j hj
      exact absurd hs (h1.strict h2).not_same

/-- Pieces on one line which start at the point end together. -/
theorem Moving.ends {ε : K} {P : Finset (Point K)} {s : State K} {line : List Nat} {p : Point K}
    (hm : Moving ε P s line p) (hno : ∀ e ∈ s.queue, p < s.evStart e) {i j : Nat}
    (hi : i < s.nextLeft) (hj : j < s.nextLeft) (hs : Same ε (s.seg i) (s.seg j))
    (ei : (s.lefts i).start = p) (ej : (s.lefts j).start = p) : s.leftEnd i = s.leftEnd j := by
  have hb := hm.base
  have hw := hb.clock.wf
  have he : ∀ k ∈ line, p < s.leftEnd k := fun k hk => hno _ ((hb.active k).mp hk).2.2
  have online : ∀ k < s.nextLeft, (s.lefts k).start = p → k ∈ line := fun k hk e =>
    hb.mem_line hk (fun hq => (hno _ hq).ne e.symm) (e ▸ hw.lt k hk)
  have sorted := hm.sorted he
  have main : ∀ i j l₁ l₂, line = l₁ ++ i :: l₂ → j ∈ l₂ → Same ε (s.seg i) (s.seg j) →
      (s.lefts i).start = p → (s.lefts j).start = p → s.leftEnd i = s.leftEnd j := by
    intro i j l₁ l₂ e hjl hs ei ej
    have hil : i ∈ line := by rw [e]; simp
    have hjl' : j ∈ line := by rw [e]; simp [hjl]
    rw [e] at sorted
    obtain ⟨l₃, rfl⟩ := adjacent sorted hjl hs
    have ch := hm.chain
    rw [e] at ch
    have st := (List.isChain_cons_cons.mp (List.isChain_append.mp ch).2.1).1
    rcases st.same hs with ⟨-, h | h⟩ | h | h
    · exact h
    · exact absurd ei h.1.ne
    · rw [ej] at h; exact absurd h (he i hil).ne'
    · rw [ei] at h; exact absurd h (he j hjl').ne'
  by_cases hij : i = j
  · rw [hij]
  obtain ⟨l₁, l₂, e⟩ := List.append_of_mem (online i hi ei)
  have hjl := online j hj ej
  rw [e, List.mem_append, List.mem_cons] at hjl
  rcases hjl with hjl | hjl | hjl
  · obtain ⟨l₃, l₄, rfl⟩ := List.append_of_mem hjl
    refine (main j i l₃ (l₄ ++ i :: l₂) ?_ (by simp) hs.symm ej ei).symm
    rw [e]; simp
  · exact absurd hjl.symm hij
  · exact main i j l₁ l₂ e hjl hs ei ej

/-- What holds between the iterations of a sweep. -/
structure Track (ε : K) (P : Finset (Point K)) (c : Config K) (ems : List (Emitted K)) (p : Point K) :
    Prop where
  start : c.start = some p
  moving : Moving ε P c.s c.line p
  full : ∀ e, c.s.Valid e → e ∉ c.s.queue → c.s.evStart e = p → e ∈ c.group
  told : Told ε c.s (· < p) ems

theorem Track.step {ε : K} {P : Finset (Point K)} {linear : Bool} {context : Context K}
    (hc : context.Exact) {stopX : K} {c d : Config K} (hi : Inv c) {ems ems' : List (Emitted K)}
    {p : Point K} (tr : Track ε P c ems p)
    (h : sweepStep linear context stopX c = some (ems', .ok d)) :
    ∃ p', Track ε P d (ems ++ ems') p' ∧ p'.x ≤ stopX := by
  obtain ⟨e, t, it, hh, hel, -⟩ := sweepStep_ok hc hi h
  obtain ⟨g1, g2⟩ := it.groupOK hi
  have hpk := it.peek
  have hmem := peek?_mem hpk
  have hb := tr.moving.base
  have hw := hi.wf
  refine ⟨c.s.evStart e, ?_, it.le⟩
  obtain ⟨q, hq⟩ : ∃ q, c.s.evStart e = q := ⟨_, rfl⟩
  have shape := (it.rels hi).shape
  have ct : Clock ε P t := (hb.clock.pop e).elems (it.rels hi).elems
  rw [hq] at g1 g2 ⊢
  -- the rest of the state and what follows from it
  have finish : Moving ε P c.s c.line q → Told ε t (· < q) (ems ++ ems') →
      (∀ x, t.Valid x → x ∉ t.queue → t.evStart x = q → x ∈ d.group) →
      Track ε P d (ems ++ ems') q := by
    intro hm ht hf
    obtain ⟨m, cuts⟩ := hm.handle hc hpk hq shape hh
    refine ⟨g1, m, fun x hv hn hx => ?_, ?_⟩
    · have hv' := (hel.queue.2 x hv).resolve_right hn
      rw [(hel.evStart ct.wf hv').1] at hx
      exact hf x hv' (fun hm => hn (hel.queue.1 x hm)) hx
    · refine ht.keep ct hel (fun i hi => cuts.relation ct.wf hi) fun x hv hx => ?_
      refine (hel.queue.2 x hv).resolve_right fun hm => ?_
      exact absurd (m.base.queue x hm) (not_le.mpr hx)
  rcases it.closed with ⟨hs, rfl, rfl, -, hg⟩ | ⟨hs, rfl, rfl, -, hg⟩
  · rw [hq, tr.start] at hs
    obtain rfl := Option.some.inj hs
    rw [List.append_nil] at finish ⊢
    refine finish tr.moving (tr.told.pop e) fun x hv hn hx => ?_
    rw [hg, List.mem_append, List.mem_singleton]
    by_cases hxe : x = e
    · exact .inr hxe
    · exact .inl (tr.full x hv (fun hm => hn ((List.mem_erase_of_ne hxe).mpr hm)) hx)
  · rw [hq, tr.start] at hs
    have hlt : p < q := lt_of_le_of_ne (hq ▸ hb.queue e hmem) fun e => hs (congrArg some e.symm)
    have hall : ∀ x ∈ c.s.queue, q ≤ c.s.evStart x := hq ▸ peek?_le hpk
    obtain ⟨m, -⟩ := tr.moving.advance hlt hall ⟨e, hmem, hq⟩
    have hgr : GroupOK (popped c.s e) p c.group := hi.group p tr.start
    have cl := (tr.told.pop e).close (hb.clock.pop e) linear context hgr
      (fun x hv hx => tr.full x hv (fun hm => absurd (hall x hm) (not_le.mpr (by
        rw [show c.s.evStart x = p from hx]; exact hlt))) hx)
      (fun i hi j hj h1 h2 h3 h4 h5 => m.base.pastSame i hi j hj h1 (h2.trans_lt hlt)
        (h3.trans_lt hlt) h4 h5)
      (fun i hi j hj h1 h2 h3 => tr.moving.ends (fun x hx => hlt.trans_le (hall x hx)) hi hj h1 h2 h3)
    have between : ∀ x, (popped c.s e).Valid x → c.s.evStart x < q → c.s.evStart x ≤ p := by
      intro x hv hx
      exact hb.popped x hv fun hm => absurd (hall x hm) (not_le.mpr hx)
    refine finish m (cl.imp fun x hv hx => ?_) fun x hv hn hx => ?_
    · rw [SameShape.evStart shape] at hx ⊢
      refine between x ?_ hx
      cases x with
      | left i => exact (show i < c.s.nextLeft from shape.nextLeft ▸ hv)
      | right i => exact (show i < c.s.nextRight from shape.nextRight ▸ hv)
    · rw [SameShape.evStart shape] at hx
      rw [shape.queue] at hn
      have hv' : c.s.Valid x := by
        cases x with
        | left i => exact (show i < c.s.nextLeft from shape.nextLeft ▸ hv)
        | right i => exact (show i < c.s.nextRight from shape.nextRight ▸ hv)
      rw [hg, List.mem_singleton]
      by_contra hxe
      have := hb.popped x hv' fun hm => hn ((List.mem_erase_of_ne hxe).mpr hm)
      rw [show c.s.evStart x = q from hx] at this
      exact absurd hlt (not_lt.mpr this)

/-- The start of a sweep. -/
theorem track_initial {ε : K} {P : Finset (Point K)} {context : Context K} {s : State K}
    (h : s.Fresh) (c : Clock ε P s) (hcl : ¬ Clash s) {e : Ev} (he : peek? context s = some e) :
    Track ε P (initial context s) [] (s.evStart e) := by
  have hq := peek?_le he
  have all : ∀ x, s.Valid x → x ∈ s.queue := by
    intro x hv
    cases x with
    | left i => exact h.lefts i hv
    | right i => exact h.rights i (h.nextRight ▸ hv)
  have hst : ∀ i < s.nextLeft, s.evStart e ≤ (s.lefts i).start := fun i hi => hq (.left i) (all _ hi)
  have hP : s.evStart e ∈ P := by
    have hv := h.wf.valid_of_mem (peek?_mem he)
    cases e with
    | left i => exact c.points.start i hv
    | right r =>
      have := c.points.finish _ (h.wf.rightLeft r hv).1
      rwa [h.wf.leftEnd_left hv] at this
  refine ⟨by simp [initial, he], ⟨⟨c, hP, List.nodup_nil, fun i => ?_, hq, fun x hv hn => ?_,
    List.Pairwise.nil, ?_, ?_, ?_, hcl⟩, List.IsChain.nil, .inl ⟨?_, List.Pairwise.nil, ?_, ?_⟩⟩, ?_, ?_⟩
  · simp only [initial, List.not_mem_nil, false_iff, not_and]
    exact fun hi hn => absurd (all (.left i) hi) hn
  · exact absurd (all x hv) hn
  · intro i hi j hj _ x hx _ hlt
    exact absurd ((hst i hi).trans (c.start_le hi hx)) (not_le.mpr hlt)
  · intro i hi j hj _ h1
    exact absurd (hst i hi) (not_le.mpr h1)
  · intro i hi j hj _ _ h1
    exact absurd ((hst i hi).trans (h.wf.lt i hi).le) (not_le.mpr h1)
  · intro i hi; cases hi
  · intro i hi; cases hi
  · intro i hi; cases hi
  · intro x hv hn; exact absurd (all x hv) hn
  · refine ⟨fun i hi j hj _ _ _ h4 => absurd (hst i hi) (not_le.mpr h4), fun x x' hv _ _ _ h4 => ?_,
      fun x x' hv _ _ _ h4 => ?_, by simp⟩
    · exact absurd (hq x (all x hv)) (not_le.mpr h4)
    · exact absurd (hq x (all x hv)) (not_le.mpr h4)

theorem Reaches.track {ε : K} {P : Finset (Point K)} {linear : Bool} {context : Context K}
    (hc : context.Exact) {stopX : K} {s : State K} (h : s.Fresh) (c : Clock ε P s) (hcl : ¬ Clash s)
    {e : Ev} (he : peek? context s = some e) {d : Config K} {ems : List (Emitted K)}
    (hr : Reaches linear context stopX (initial context s) ems d) :
    ∃ p, Track ε P d ems p ∧ (p.x ≤ stopX ∨ d.group = []) := by
  induction hr with
  | refl => exact ⟨_, track_initial h c hcl he, .inr rfl⟩
  | tail h1 h2 ih =>
    obtain ⟨p, tr, -⟩ := ih
    obtain ⟨p', tr', hx⟩ := tr.step hc (h1.inv hc (initial_inv context h.wf)).1 h2
    exact ⟨p', tr', .inl hx⟩

/-! ### the end of a sweep -/

/-- What a sweep finds up to the given abscissa. -/
structure Complete (s : State K) (stopX : K) (ems : List (Emitted K)) : Prop where
  /-- common points are noticed -/
  common : ∀ x ∈ s.operand true, x ∈ s.operand false → x.x ≤ stopX →
    ∃ em ∈ ems, em.relation ≠ .disjoint
  /-- the pieces of an operand which is a part of the other one are found to be common -/
  subset : ∀ b, s.operand b ⊆ s.operand (!b) → ∀ em ∈ ems, em.fromTest = b → em.relation = .overlap
  /-- common pieces are noticed -/
  shares : ∀ u : Segment K, u.Nondegenerate → u.pts ⊆ s.operand true → u.pts ⊆ s.operand false →
    (∀ x ∈ u.pts, x.x ≤ stopX) → ∃ em ∈ ems, em.relation = .overlap

theorem x_le_of_le {p q : Point K} (h : p ≤ q) : p.x ≤ q.x := by
  rw [Point.le_iff] at h
  rcases h with h | h
  · exact h.le
  · exact h.1.le

theorem complete_of_told {ε : K} {P : Finset (Point K)} {s : State K} (c : Clock ε P s) {stopX : K}
    {ems : List (Emitted K)} (h : Told ε s (fun x => x.x ≤ stopX) ems)
    (past : ∀ i < s.nextLeft, ∀ j < s.nextLeft, ¬ Same ε (s.seg i) (s.seg j) →
      ∀ x ∈ (s.seg i).pts, x ∈ (s.seg j).pts → x.x ≤ stopX →
        (s.seg i).IsEndpoint x ∧ (s.seg j).IsEndpoint x)
    (same : ∀ i < s.nextLeft, ∀ j < s.nextLeft, Same ε (s.seg i) (s.seg j) →
      (s.lefts i).start.x ≤ stopX → (s.lefts j).start.x ≤ stopX → (s.lefts i).start < s.leftEnd j →
      (s.lefts j).start < s.leftEnd i → (s.lefts i).start = (s.lefts j).start) :
    Complete s stopX ems := by
  have hw := c.wf
  -- endpoints are starts of events
  have event : ∀ i < s.nextLeft, ∀ x, (s.seg i).IsEndpoint x →
      ∃ e, s.Valid e ∧ s.evStart e = x ∧ s.evFromTest e = (s.lefts i).fromTest := by
    rintro i hi x (e | e)
    · exact ⟨.left i, hi, e.symm, rfl⟩
    · obtain ⟨h1, h2⟩ := hw.leftRight i hi
      refine ⟨.right (s.lefts i).right, h1, e.symm, ?_⟩
      simp only [State.evFromTest, State.leftOf, h2]
  have meet : ∀ i < s.nextLeft, ∀ j < s.nextLeft, (s.lefts i).fromTest ≠ (s.lefts j).fromTest →
      ∀ x, x.x ≤ stopX → (s.seg i).IsEndpoint x → (s.seg j).IsEndpoint x →
      ∃ em ∈ ems, em.relation ≠ .disjoint := by
    intro i hi j hj hne x hx h1 h2
    obtain ⟨e, v, a1, a2⟩ := event i hi x h1
    obtain ⟨e', v', b1, b2⟩ := event j hj x h2
    exact h.common e e' v v' (by rw [a2, b2]; exact hne) (a1.trans b1.symm) (by rw [a1]; exact hx)
  refine ⟨?_, h.subset, ?_⟩
  · rintro x ⟨i, hi, bi, mi⟩ ⟨j, hj, bj, mj⟩ hx
    have hne : (s.lefts i).fromTest ≠ (s.lefts j).fromTest := by rw [bi, bj]; simp
    by_cases hs : Same ε (s.seg i) (s.seg j)
    · have i1 := c.start_le hi mi
      have i2 := c.le_end hi mi
      have j1 := c.start_le hj mj
      have j2 := c.le_end hj mj
      rcases (j1.trans i2).lt_or_eq with l1 | l1
      · rcases (i1.trans j2).lt_or_eq with l2 | l2
        · have e := same i hi j hj hs ((x_le_of_le i1).trans hx) ((x_le_of_le j1).trans hx) l2 l1
          exact meet i hi j hj hne (s.lefts i).start ((x_le_of_le i1).trans hx) (.inl rfl) (.inl e)
        · exact meet i hi j hj hne x hx (.inl (le_antisymm (j2.trans_eq l2.symm) i1))
            (.inr (le_antisymm j2 (l2.symm.trans_le i1)))
      · exact meet i hi j hj hne x hx (.inr (le_antisymm i2 (l1.symm.trans_le j1)))
          (.inl (le_antisymm (i2.trans_eq l1.symm) j1))
    · obtain ⟨h1, h2⟩ := past i hi j hj hs x mi mj hx
      exact meet i hi j hj hne x hx h1 h2
  · intro u hu h1 h2 hx
    obtain ⟨x, mx, i, hi, j, hj, bi, bj, hs, l1, l2, l3, l4⟩ := Clock.shares c hu h1 h2
    have xi := (x_le_of_le l1.le).trans (hx x mx)
    have xj := (x_le_of_le l3.le).trans (hx x mx)
    have e := same i hi j hj hs xi xj (l1.trans l4) (l3.trans l2)
    exact (h.overlap i hi j hj hs (by rw [bi, bj]; simp) e xi).2

theorem Complete.of_elems {s t : State K} (hw : s.WF) (h : Runs s t) {stopX : K}
    {ems : List (Emitted K)} (hc : Complete t stopX ems) : Complete s stopX ems := by
  have e : ∀ b, t.operand b = s.operand b := by
    intro b
    obtain ⟨o, ho⟩ := h.refines hw
    exact ho.operand b
  refine ⟨?_, ?_, ?_⟩
  · have := hc.common; rw [e, e] at this; exact this
  · intro b hb; exact hc.subset b (by rw [e, e]; exact hb)
  · have := hc.shares; rw [e, e] at this; exact this

/-- Everything up to the abscissa is resolved. -/
structure Resolved (ε : K) (s : State K) (stopX : K) : Prop where
  past : ∀ i < s.nextLeft, ∀ j < s.nextLeft, ¬ Same ε (s.seg i) (s.seg j) →
    ∀ x ∈ (s.seg i).pts, x ∈ (s.seg j).pts → x.x ≤ stopX →
      (s.seg i).IsEndpoint x ∧ (s.seg j).IsEndpoint x
  same : ∀ i < s.nextLeft, ∀ j < s.nextLeft, Same ε (s.seg i) (s.seg j) →
    (s.lefts i).start.x ≤ stopX → (s.lefts j).start.x ≤ stopX → (s.lefts i).start < s.leftEnd j →
    (s.lefts j).start < s.leftEnd i → (s.lefts i).start = (s.lefts j).start
  ends : ∀ i < s.nextLeft, ∀ j < s.nextLeft, Same ε (s.seg i) (s.seg j) →
    (s.lefts i).start = (s.lefts j).start → (s.leftEnd i).x ≤ stopX → s.leftEnd j = s.leftEnd i

theorem Resolved.shape {ε : K} {s t : State K} {stopX : K} (h : Resolved ε s stopX)
    (hs : SameShape s t) : Resolved ε t stopX := by
  refine ⟨?_, ?_, ?_⟩
  · have := h.past
    intro i hi j hj
    rw [hs.nextLeft] at hi hj
    rw [hs.seg, hs.seg]
    exact this i hi j hj
  · have := h.same
    intro i hi j hj
    rw [hs.nextLeft] at hi hj
    rw [hs.seg, hs.seg, hs.start, hs.start, hs.leftEnd, hs.leftEnd]
    exact this i hi j hj
  · have := h.ends
    intro i hi j hj
    rw [hs.nextLeft] at hi hj
    rw [hs.seg, hs.seg, hs.start, hs.start, hs.leftEnd, hs.leftEnd]
    exact this i hi j hj

/-- Events which are still queued at the end are beyond. -/
theorem sweepStep_beyond {linear : Bool} {context : Context K} {stopX : K} {d : Config K}
    (h : sweepStep linear context stopX d = none) : ∀ x ∈ d.s.queue, stopX < (d.s.evStart x).x := by
  intro x hx
  unfold sweepStep at h
  cases hp : peek? context d.s with
  | none => rw [peek?_none hp] at hx; cases hx
  | some e' =>
    rw [hp] at h
    simp only at h
    split_ifs at h with hgt
    exact lt_of_lt_of_le hgt (evStart_x_le hp hx)

theorem Track.resolved {ε : K} {P : Finset (Point K)} (context : Context K) {d : Config K}
    {ems : List (Emitted K)} {p : Point K} (tr : Track ε P d ems p) {stopX : K}
    (beyond : ∀ x ∈ d.s.queue, stopX < (d.s.evStart x).x) : Resolved ε d.s stopX := by
  have hb := tr.moving.base
  have cd := hb.clock
  have of_base : ∀ q, Base ε P d.s d.line q → stopX < q.x → Resolved ε d.s stopX := fun q hb hq =>
    ⟨fun i hi j hj hn x hx hx' (hle : x.x ≤ stopX) =>
        hb.past i hi j hj hn x hx hx' ((Point.lt_iff _ _).mpr (.inl (hle.trans_lt hq))),
      fun i hi j hj hs (h1 : (d.s.lefts i).start.x ≤ stopX)
          (h2 : (d.s.lefts j).start.x ≤ stopX) h3 h4 =>
        hb.pastSame i hi j hj hs ((Point.lt_iff _ _).mpr (.inl (h1.trans_lt hq)))
          ((Point.lt_iff _ _).mpr (.inl (h2.trans_lt hq))) h3 h4,
      fun i hi j hj hs h1 (h2 : (d.s.leftEnd i).x ≤ stopX) =>
        hb.pastEnd i hi j hj hs h1 ((Point.lt_iff _ _).mpr (.inl (h2.trans_lt hq)))⟩
  cases hp : peek? context d.s with
  | none =>
    have hempty := peek?_none hp
    have ended : ∀ i < d.s.nextLeft, d.s.leftEnd i ≤ p := fun i hi =>
      hb.popped (.right (d.s.lefts i).right) (cd.wf.leftRight i hi).1 (by rw [hempty]; simp)
    refine ⟨fun i hi j hj hn x hx hx' _ => ?_, fun i hi j hj hs _ _ h3 h4 => ?_,
      fun i hi j hj hs h1 _ => ?_⟩
    · have li := cd.le_end hi hx
      have lj := cd.le_end hj hx'
      rcases (li.trans (ended i hi)).lt_or_eq with hlt | heq
      · exact hb.past i hi j hj hn x hx hx' hlt
      · exact ⟨.inr (le_antisymm li (heq ▸ ended i hi)), .inr (le_antisymm lj (heq ▸ ended j hj))⟩
    · exact hb.pastSame i hi j hj hs ((cd.wf.lt i hi).trans_le (ended i hi))
        ((cd.wf.lt j hj).trans_le (ended j hj)) h3 h4
    · rcases (ended i hi).lt_or_eq with hlt | heq
      · exact hb.pastEnd i hi j hj hs h1 hlt
      · rcases (ended j hj).lt_or_eq with hlt' | heq'
        · exact (hb.pastEnd j hj i hi hs.symm h1.symm hlt').symm
        · exact heq'.trans heq.symm
  | some e' =>
    have hm := peek?_mem hp
    rcases (hb.queue e' hm).lt_or_eq with hlt | heq
    · exact of_base _ (tr.moving.advance hlt (peek?_le hp) ⟨e', hm, rfl⟩).1.base (beyond e' hm)
    · exact of_base p hb (by rw [heq]; exact beyond e' hm)

/-- What is known of the pieces when a sweep is over. -/
theorem sweep_told (linear : Bool) {context : Context K} (hc : context.Exact) (stopX : K)
    {s f : State K} (h : s.Fresh) (hcl : ¬ Clash s) (hf : (sweep linear context stopX s).2 = .ok f)
    (hne : s.nextLeft ≠ 0) :
    ∃ ε P t, Clock ε P s ∧ Clock ε P t ∧ Runs s t ∧
      Told ε t (fun x => x.x ≤ stopX) (sweep linear context stopX s).1 ∧ Resolved ε t stopX := by
  obtain ⟨P, hP, -⟩ := exists_breakPoints h.wf
  obtain ⟨ε, hε⟩ := exists_inclination P
  have c : Clock ε P s := ⟨h.wf, hP, hε⟩
  rcases sweep_ends linear hc stopX h.wf h.length with ⟨ems, d, h1, h2, h3, h4⟩ | ⟨h1, -⟩
  swap
  · rw [h1] at hf; cases hf
  obtain ⟨hd, hruns⟩ := h1.inv hc (initial_inv context h.wf)
  have hruns : Runs s d.s := hruns
  rw [h3]
  cases he : peek? context s with
  | none =>
    have := h.lefts 0 (Nat.pos_of_ne_zero hne)
    rw [peek?_none he] at this
    cases this
  | some e₀ =>
    obtain ⟨p, tr, hx⟩ := h1.track hc h c hcl he
    have hb := tr.moving.base
    have cd := hb.clock
    have hgr : GroupOK d.s p d.group := hd.group p tr.start
    obtain ⟨k1, -, -⟩ := closeGroup_spec linear context hd.wf hgr
    have u := (closeGroup_up linear context d.s d.group).1
    have beyond := sweepStep_beyond h2
    have handled : ∀ x, d.s.Valid x → (d.s.evStart x).x ≤ stopX → x ∉ d.s.queue := fun x _ hle hm =>
      absurd (beyond x hm) (not_lt.mpr hle)
    have resolved := tr.resolved context beyond
    -- the last group
    have hfin : Told ε (closeGroup linear context d.s d.group).2 (fun x => x.x ≤ stopX)
        (ems ++ (closeGroup linear context d.s d.group).1) := by
      have valid : ∀ x, (closeGroup linear context d.s d.group).2.Valid x → d.s.Valid x := by
        intro x hv
        cases x with
        | left i => exact (show i < d.s.nextLeft from k1.shape.nextLeft ▸ hv)
        | right i => exact (show i < d.s.nextRight from k1.shape.nextRight ▸ hv)
      by_cases hpx : p.x ≤ stopX
      · refine (tr.told.close cd linear context hgr (fun x hv hx => tr.full x hv ?_ hx) ?_ ?_).imp
          fun x hv hx => ?_
        · exact handled x hv (by rw [hx]; exact hpx)
        · intro i hi j hj hs h1 h2
          exact resolved.same i hi j hj hs ((x_le_of_le h1).trans hpx) ((x_le_of_le h2).trans hpx)
        · intro i hi j hj hs h1 h2
          refine tr.moving.ends (fun x hx => (Point.lt_iff _ _).mpr (.inl ?_)) hi hj hs h1 h2
          exact hpx.trans_lt (beyond x hx)
        · rw [SameShape.evStart k1.shape] at hx ⊢
          exact hb.popped x (valid x hv) (handled x (valid x hv) hx)
      · have hg := hx.resolve_left hpx
        have hems : (closeGroup linear context d.s d.group).1 = [] := by
          rw [List.eq_nil_iff_forall_not_mem]
          intro em hem
          obtain ⟨e, he, -⟩ := (closeGroup_up linear context d.s d.group).2.1 em hem
          rw [hg] at he
          cases he
        have hs : (closeGroup linear context d.s d.group).2 = d.s := by
          rw [hg]; cases linear <;> rfl
        rw [hems, List.append_nil, hs]
        refine tr.told.imp fun x hv hle => ?_
        exact (Point.lt_iff _ _).mpr (.inl (hle.trans_lt (not_le.mp hpx)))
    exact ⟨ε, P, _, c, cd.elems k1.elems, hruns.trans k1.elems.runs, hfin, resolved.shape u.shape⟩

theorem sweep_complete (linear : Bool) {context : Context K} (hc : context.Exact) (stopX : K)
    {s f : State K} (h : s.Fresh) (hcl : ¬ Clash s) (hf : (sweep linear context stopX s).2 = .ok f) :
    Complete s stopX (sweep linear context stopX s).1 := by
  by_cases hne : s.nextLeft = 0
  · -- there is nothing at all
    have none : ∀ b, s.operand b = ∅ := by
      intro b
      rw [Set.eq_empty_iff_forall_notMem]
      rintro x ⟨i, hi, -⟩
      omega
    refine ⟨fun x hx => ?_, fun b hb em hem hfb => ?_, fun u hu h1 => ?_⟩
    · rw [none] at hx; cases hx
    · obtain ⟨k1, k2, -⟩ := (sweep_swept linear hc stopX h hf).sound em hem
      have := k2 (Segment.start_mem _)
      rw [none] at this; cases this
    · have := h1 u.start_mem
      rw [none] at this; cases this
  · obtain ⟨ε, P, t, -, ct, hr, ht, rs⟩ := sweep_told linear hc stopX h hcl hf hne
    exact Complete.of_elems h.wf hr (complete_of_told ct ht rs.past rs.same)

/-- Segments on one line with a common inner point have a common piece. -/
theorem Same.shares {ε : K} {u v : Segment K} (h : Same ε u v)
    (hu : u.start.time ε < u.finish.time ε) (hv : v.start.time ε < v.finish.time ε) {x : Point K}
    (h1 : u.start.time ε < x.time ε) (h2 : x.time ε < u.finish.time ε)
    (h3 : v.start.time ε < x.time ε) (h4 : x.time ε < v.finish.time ε) :
    SharesPiece u.pts v.pts := by
  have key : ∀ t, u.pointAt ε t = v.pointAt ε t := fun t =>
    Point.ext_time ((pointAt_time _ _).trans (pointAt_time _ _).symm) (h.at t)
  set a := max (u.start.time ε) (v.start.time ε)
  set b := min (u.finish.time ε) (v.finish.time ε)
  have ab : a < b := (max_lt h1 h3).trans (lt_min h2 h4)
  have mem : ∀ w : Segment K, w.start.time ε < w.finish.time ε → w.start.time ε ≤ a →
      b ≤ w.finish.time ε → (⟨w.pointAt ε a, w.pointAt ε b⟩ : Segment K).pts ⊆ w.pts := by
    intro w hw l1 l2
    exact Segment.pts_subset (pointAt_mem hw l1 (ab.le.trans l2)) (pointAt_mem hw (l1.trans ab.le) l2)
  refine ⟨⟨u.pointAt ε a, u.pointAt ε b⟩, fun e => ?_, mem u hu (le_max_left _ _) (min_le_left _ _), ?_⟩
  · have := congrArg (fun p => p.time ε) e
    simp only [pointAt_time] at this
    exact ab.ne this
  · rw [key, key]; exact mem v hv (le_max_right _ _) (min_le_right _ _)

/-- A point inside of segments of both operands is found to be a crossing. -/
theorem sweep_crossed (linear : Bool) {context : Context K} (hc : context.Exact) (stopX : K)
    {s f : State K} (h : s.Fresh) (hcl : ¬ Clash s) (hf : (sweep linear context stopX s).2 = .ok f)
    {u v : Nat} (hu : u < s.nextLeft) (hv : v < s.nextLeft)
    (huv : (s.lefts u).fromTest ≠ (s.lefts v).fromTest) {x : Point K} (iu : (s.seg u).Inner x)
    (iv : (s.seg v).Inner x) (hx : x.x ≤ stopX) (hn : ¬ SharesPiece (s.seg u).pts (s.seg v).pts) :
    ∃ em ∈ (sweep linear context stopX s).1, Big em.relation := by
  obtain ⟨ε, P, t, c, ct, hr, ht, rs⟩ := sweep_told linear hc stopX h hcl hf (by omega)
  obtain ⟨o, ho⟩ := hr.refines h.wf
  have hw := ct.wf
  obtain ⟨i, hi, rfl, mi⟩ := ho.cover u hu x iu.1
  obtain ⟨j, hj, rfl, mj⟩ := ho.cover v hv x iv.1
  have between : ∀ k < s.nextLeft, (s.seg k).Inner x →
      (s.seg k).start.time ε < x.time ε ∧ x.time ε < (s.seg k).finish.time ε := by
    intro k hk ik
    obtain ⟨l1, l2, l3⟩ := (mem_pts_iff_height (c.times hk) x).mp ik.1
    refine ⟨lt_of_le_of_ne l1 fun e => ik.2 (.inl ?_), lt_of_le_of_ne l2 fun e => ik.2 (.inr ?_)⟩
    · exact Point.ext_time e.symm (by rw [l3, ← e, height_start])
    · exact Point.ext_time e (by rw [l3, e, height_finish (c.times hk)])
  have hns : ¬ Same ε (t.seg i) (t.seg j) := by
    intro hs
    have si := same_of_subset (c.times hu) (ct.times hi) (ho.subset i hi (start_mem _))
      (ho.subset i hi (finish_mem _))
    have sj := same_of_subset (c.times hv) (ct.times hj) (ho.subset j hj (start_mem _))
      (ho.subset j hj (finish_mem _))
    obtain ⟨a1, a2⟩ := between _ hu iu
    obtain ⟨b1, b2⟩ := between _ hv iv
    exact hn (Same.shares ((si.trans hs).trans sj.symm) (c.times hu) (c.times hv) a1 a2 b1 b2)
  obtain ⟨e1, e2⟩ := rs.past i hi j hj hns x mi mj hx
  -- events at the point
  have event : ∀ k < t.nextLeft, (s.seg (o k)).Inner x → (t.seg k).IsEndpoint x →
      ∃ e, t.Valid e ∧ t.evStart e = x ∧ t.evFromTest e = (s.lefts (o k)).fromTest ∧ Amid t e := by
    rintro k hk ik (e | e)
    · refine ⟨.left k, hk, e.symm, ho.fromTest k hk, fun e' => ik.2 (.inl ?_)⟩
      have e' : (t.lefts k).start = (t.lefts k).originalStart := e'
      rw [ho.originalStart k hk, h.originalStart _ (ho.lt k hk)] at e'
      exact e.trans e'
    · obtain ⟨h1, h2⟩ := hw.leftRight k hk
      refine ⟨.right (t.lefts k).right, h1, e.symm, ?_, fun e' => ik.2 (.inr ?_)⟩
      · simp only [State.evFromTest, State.leftOf, h2]
        exact ho.fromTest k hk
      · have e' : (t.rights (t.lefts k).right).start = (t.rights (t.lefts k).right).originalStart := e'
        rw [ho.originalEnd k hk, h.right _ (ho.lt k hk), h.originalEnd _ (ho.lt k hk)] at e'
        refine e.trans (e'.trans ?_)
        change _ = s.leftEnd (o k)
        unfold State.leftEnd
        rw [h.right _ (ho.lt k hk)]
  obtain ⟨e, v1, a1, a2, a3⟩ := event i hi iu e1
  obtain ⟨e', v2, b1, b2, b3⟩ := event j hj iv e2
  obtain ⟨em, hem, hb, -⟩ := ht.crossed e e' v1 v2 (by rw [a2, b2]; exact huv) (a1.trans b1.symm)
    (by rw [a1]; exact hx) a3 b3
  exact ⟨em, hem, hb⟩

end Orient.eventsQueue
