import Verif.Lemmas.Sweep.MetOrder

/-! Exactly when the linear queue reports crossings. -/

set_option linter.unusedSectionVars false

namespace Orient

variable {K : Type} [Field K] [LinearOrder K] [IsStrictOrderedRing K]

/-! ### only the points of the segments matter -/

theorem Jumps.of_pts {l l' : List (Segment K)} (h1 : ∀ w ∈ l, ∃ w' ∈ l', w'.pts = w.pts)
    (h2 : ∀ w ∈ l', ∃ w' ∈ l, w'.pts = w.pts) {p a : Point K} (h : Jumps l p a) : Jumps l' p a := by
  have begins : ∀ {l l' : List (Segment K)}, (∀ w ∈ l, ∃ w' ∈ l', w'.pts = w.pts) → ∀ b,
      Begins l p b → Begins l' p b := by
    rintro l l' h b ⟨w, hw, k1, x, hx, k2⟩
    obtain ⟨w', hw', e⟩ := h w hw
    exact ⟨w', hw', e ▸ k1, x, e ▸ hx, k2⟩
  obtain ⟨⟨v, hv, iv, all⟩, h3, h4⟩ := h
  obtain ⟨v', hv', e⟩ := h1 v hv
  refine ⟨⟨v', hv', Segment.Inner.of_subset (show v.Inner p from iv) e.symm.subset, fun w hw mw => ?_⟩,
    begins h1 a h3, fun b hb => h4 b (begins h2 b hb)⟩
  obtain ⟨w', hw', e'⟩ := h2 w hw
  rw [e, ← e']
  exact all w' hw' (e' ▸ mw)

theorem MetBefore.of_pts {l l' : List (Segment K)} (h1 : ∀ w ∈ l, ∃ w' ∈ l', w'.pts = w.pts)
    (h2 : ∀ w ∈ l', ∃ w' ∈ l, w'.pts = w.pts) {p a b : Point K} (h : MetBefore l p a b) :
    MetBefore l' p a b :=
  ⟨fun hj => h.1 (hj.of_pts h2 h1), h.2.imp (fun hj => hj.of_pts h1 h2) id⟩

theorem WidelyCrossesAt.of_pts {l l' : List (Segment K)} (h1 : ∀ w ∈ l, ∃ w' ∈ l', w'.pts = w.pts)
    (h2 : ∀ w ∈ l', ∃ w' ∈ l, w'.pts = w.pts) {S T : Set (Point K)} {p : Point K}
    (h : WidelyCrossesAt l S T p) : WidelyCrossesAt l' S T p := by
  obtain ⟨d, g, k, x, y, hd, hg, hk, h3⟩ := h
  have widest : ∀ {a b : Point K}, WidestWay l T p a b → WidestWay l' T p a b := fun h =>
    ⟨h.1, fun c hc => (h.2 c hc).imp id fun e => ⟨e.1, e.2.imp id (·.of_pts h1 h2)⟩⟩
  exact ⟨d, g, k, x, y, ⟨hd.1, fun b hb => (hd.2 b hb).imp id (·.of_pts h1 h2)⟩, widest hg, widest hk, h3⟩

theorem WidelyCrossesAt.crossesAt {l : List (Segment K)} {S T : Set (Point K)} {p : Point K}
    (h : WidelyCrossesAt l S T p) : CrossesAt S T p := by
  obtain ⟨d, g, k, x, y, -, hg, hk, hx, hy, i1, i2⟩ := h
  exact CrossesAt.symm ⟨g, k, x, y, hg.1.2, hk.1.2, hx.2, hy.2, i1, i2⟩

namespace eventsQueue

open Segment State

section

variable {ε : K} {P : Finset (Point K)} {s₀ s : State K} {o : Nat → Nat} {p : Point K}
  {group : List Ev} {S T : Set (Point K)} {l : List (Segment K)}

/-- Segments of both operands have a common inner point. -/
def InnerMeet (s : State K) (p : Point K) : Prop :=
  ∃ i < s.nextLeft, ∃ j < s.nextLeft, (s.lefts i).fromTest = true ∧ (s.lefts j).fromTest = false ∧
    (s.seg i).Inner p ∧ (s.seg j).Inner p

theorem CrossFrom.innerMeet (hF : s₀.Fresh) (c₀ : Clock ε P s₀) (hr : Refines s₀ s o) (hw : s.WF)
    (hg : GroupOK s p group) {k : Nat} (hk : CrossFrom s group k) : InnerMeet s₀ p := by
  obtain ⟨e, he, rfl, x, hx, hne, h1, h2⟩ := hk
  obtain ⟨ve, pe⟩ := hg e he
  obtain ⟨vx, px⟩ := hg x hx
  have ie := inner_of_event hF c₀ hr hw ve h1
  have ix := inner_of_event hF c₀ hr hw vx h2
  rw [pe] at ie
  rw [px] at ix
  have le := hw.leftOf_lt ve
  have lx := hw.leftOf_lt vx
  have hne : (s.lefts (s.leftOf x)).fromTest ≠ (s.lefts (s.leftOf e)).fromTest := hne
  rw [hr.fromTest _ le, hr.fromTest _ lx] at hne
  cases hb : (s₀.lefts (o (s.leftOf e))).fromTest with
  | true =>
    rw [hb] at hne
    exact ⟨_, hr.lt _ le, _, hr.lt _ lx, hb, by simpa using hne, ie, ix⟩
  | false =>
    rw [hb] at hne
    exact ⟨_, hr.lt _ lx, _, hr.lt _ le, by simpa using hne, hb, ix, ie⟩

/-- What is known of crossings. -/
structure WideOK (l : List (Segment K)) (s₀ : State K) (S T : Set (Point K)) (s : State K)
    (q : Point K → Prop) (ems : List (Emitted K)) : Prop where
  state : ∀ i < s.nextLeft, (s.lefts i).relation = .cross →
    ∃ p, InnerMeet s₀ p ∨ WidelyCrossesAt l S T p
  emitted : ∀ em ∈ ems, em.relation = .cross → ∃ p, InnerMeet s₀ p ∨ WidelyCrossesAt l S T p
  found : ∀ e, s.Valid e → q (s.evStart e) → WidelyCrossesAt l S T (s.evStart e) →
    ∃ em ∈ ems, Big em.relation

theorem WideOK.close {context : Context K} (hc : context.Exact) {ems : List (Emitted K)}
    (hS : s₀.operand true = S) (hT : s₀.operand false = T)
    (h : WideOK l s₀ S T s (· < p) ems) (hF : s₀.Fresh) (c₀ : Clock ε P s₀) (c : Clock ε P s)
    (hr : Refines s₀ s o) (hg : GroupOK s p group) (hnd : group.Nodup)
    (full : ∀ x, s.Valid x → s.evStart x = p → x ∈ group) (hcl : ¬ Clash s)
    (past : ∀ i < s.nextLeft, ∀ j < s.nextLeft, ¬ Same ε (s.seg i) (s.seg j) → p ∈ (s.seg i).pts →
      p ∈ (s.seg j).pts → (s.seg i).IsEndpoint p ∧ (s.seg j).IsEndpoint p)
    (order : group = [] ∨ ∃ e rest, group = e :: rest ∧ Ordered l s p e rest)
    (hns : ¬ SharesPiece S T) :
    WideOK l s₀ S T (closeGroup true context s group).2 (· ≤ p)
      (ems ++ (closeGroup true context s group).1) := by
  have hw := c.wf
  have eS : s.operand true = S := (hr.operand true).trans hS
  have eT : s.operand false = T := (hr.operand false).trans hT
  have hns' : ¬ SharesPiece (s.operand true) (s.operand false) := by rw [eS, eT]; exact hns
  have star := star_of_group hw hg hnd hcl hns'
  have hpw : group.Pairwise (fun x y => MetBefore l p (s.evEnd x) (s.evEnd y)) := by
    rcases order with h | ⟨e, rest, h, ho⟩
    · rw [h]; exact List.Pairwise.nil
    · exact ho.pairwise star h
  have cases := detectCrossingAngles_wide hc star (fun a b (h : MetBefore l p a b) => h.asymm) hpw
  rw [← wide_iff c hg full past hns' star l, eS, eT] at cases
  have u := (closeGroup_up true context s group).1
  have u1 := detectCrossingAngles_up context s group
  obtain ⟨b1, b2⟩ := completeEventsRelations_cross (detectCrossingAngles context s group) group
  have before : ∀ k < s.nextLeft, ((detectCrossingAngles context s group).lefts k).relation = .cross →
      ∃ p, InnerMeet s₀ p ∨ WidelyCrossesAt l S T p := by
    intro k hk hx
    rcases cases with ⟨-, e⟩ | ⟨ht, e⟩
    · rw [e] at hx; exact h.state k hk hx
    · exact ⟨p, .inr ht⟩
  refine ⟨fun i hi hx => ?_, fun em hem hx => ?_, fun e hv hq hx => ?_⟩
  · rcases b1 i hx with h1 | h1
    · exact before i (u.shape.nextLeft ▸ hi) h1
    · exact ⟨p, .inl ((h1.up u1).innerMeet hF c₀ hr hw hg)⟩
  · rcases List.mem_append.mp hem with hem | hem
    · exact h.emitted em hem hx
    · rcases b2 _ hem hx with h1 | h1
      · obtain ⟨e, he, t, -, -, rfl, -⟩ := (closeGroup_up true context s group).2.1 em hem
        exact before _ (hw.leftOf_lt (hg e he).1) h1
      · exact ⟨p, .inl ((h1.up u1).innerMeet hF c₀ hr hw hg)⟩
  · have hv1 : s.Valid e := by
      cases e with
      | left i => exact (show i < s.nextLeft from u.shape.nextLeft ▸ hv)
      | right i => exact (show i < s.nextRight from u.shape.nextRight ▸ hv)
    rw [SameShape.evStart u.shape] at hq hx
    rcases hq.lt_or_eq with hlt | heq
    · obtain ⟨em, hem, hb⟩ := h.found e hv1 hlt hx
      exact ⟨em, List.mem_append_left _ hem, hb⟩
    · rw [heq] at hx
      have ed := (cases.resolve_left fun k => k.1 hx).2
      have he := full e hv1 heq
      obtain ⟨em, hem, t, u2, -, rfl, -⟩ :=
        (completeEventsRelations_up (detectCrossingAngles context s group) group).2.2 e he
      refine ⟨_, List.mem_append_right _ hem, u2.big _ ?_⟩
      rw [u1.leftOf, ed]
      exact foldl_raise_big s group he

/-- What is known of crossings when an event is handled. -/
structure WideAt (l : List (Segment K)) (s₀ : State K) (S T : Set (Point K)) (c : Config K)
    (ems : List (Emitted K)) (p : Point K) : Prop where
  ok : WideOK l s₀ S T c.s (· < p) ems
  nodup : c.group.Nodup
  met : Met l s₀ c p

theorem WideAt.step {context : Context K} (hc : context.Exact) {stopX : K} {c d : Config K}
    (hi : Inv c) (hF : s₀.Fresh) (c₀ : Clock ε P s₀) (hr : Runs s₀ c.s) (hS : s₀.operand true = S)
    (hT : s₀.operand false = T) (hns : ¬ SharesPiece S T)
    (hl : ∀ w, w ∈ l ↔ ∃ j < s₀.nextLeft, w = s₀.seg j) (sep : Separate s₀)
    {ems ems' : List (Emitted K)} {p p' : Point K}
    (tr : Track ε P c ems p) (sd : WideAt l s₀ S T c ems p)
    (h : sweepStep true context stopX c = some (ems', .ok d)) (hp' : d.start = some p') :
    WideAt l s₀ S T d (ems ++ ems') p' := by
  have met' := sd.met.step hc hi hl c₀ hr sep tr h hp'
  obtain ⟨e, t, it, hh, hel, -⟩ := sweepStep_ok hc hi h
  obtain ⟨g1, g2⟩ := it.groupOK hi
  have hpk := it.peek
  have hmem := peek?_mem hpk
  have hb := tr.moving.base
  have hw := hi.wf
  obtain ⟨q, hq⟩ : ∃ q, c.s.evStart e = q := ⟨_, rfl⟩
  have shape := (it.rels hi).shape
  have ct : Clock ε P t := (hb.clock.pop e).elems (it.rels hi).elems
  rw [hq] at g1 g2
  rw [g1] at hp'
  obtain rfl := Option.some.inj hp'
  have finish : Moving ε P c.s c.line q → WideOK l s₀ S T t (· < q) (ems ++ ems') → d.group.Nodup →
      WideAt l s₀ S T d (ems ++ ems') q := by
    intro hm h hn
    obtain ⟨m, cuts⟩ := hm.handle hc hpk hq shape hh
    refine ⟨⟨fun i hi hx => ?_, h.emitted, fun x hv hx h1 => ?_⟩, hn, met'⟩
    · obtain ⟨j, hj, e⟩ := Cuts.relation_from cuts ct.wf hi
      exact h.state j hj (e.symm.trans hx)
    · have hv' := (hel.queue.2 x hv).resolve_right fun hm =>
        absurd (m.base.queue x hm) (not_le.mpr hx)
      rw [(hel.evStart ct.wf hv').1] at hx h1
      exact h.found x hv' hx h1
  rcases it.closed with ⟨hs, rfl, rfl, -, hg⟩ | ⟨hs, rfl, rfl, -, hg⟩
  · rw [hq, tr.start] at hs
    obtain rfl := Option.some.inj hs
    rw [List.append_nil] at finish ⊢
    refine finish tr.moving ⟨sd.ok.state, sd.ok.emitted, sd.ok.found⟩ ?_
    rw [hg]
    refine List.nodup_append.mpr ⟨sd.nodup, List.nodup_singleton e, fun x hx y hy => ?_⟩
    rw [List.mem_singleton.mp hy]
    rintro rfl
    exact sd.met.notMem x hx hmem
  · rw [hq, tr.start] at hs
    have hlt : p < q := lt_of_le_of_ne (hq ▸ hb.queue e hmem) fun e => hs (congrArg some e.symm)
    have hall : ∀ x ∈ c.s.queue, q ≤ c.s.evStart x := hq ▸ peek?_le hpk
    obtain ⟨m, -⟩ := tr.moving.advance hlt hall ⟨e, hmem, hq⟩
    have hgr : GroupOK (popped c.s e) p c.group := hi.group p tr.start
    have hrp : Runs s₀ (popped c.s e) := Runs.pop e hr hmem
    obtain ⟨o, ho⟩ := hrp.refines c₀.wf
    have sd' : WideOK l s₀ S T (popped c.s e) (· < p) ems := ⟨sd.ok.state, sd.ok.emitted, sd.ok.found⟩
    have ord : c.group = [] ∨ ∃ e1 rest, c.group = e1 :: rest ∧ Ordered l (popped c.s e) p e1 rest := by
      refine sd.met.order.imp id ?_
      rintro ⟨e1, rest, hg, o1, o2, o3⟩
      refine ⟨e1, rest, hg, o1, fun x hx y hy => o2 x hx y (List.mem_of_mem_erase hy), o3.imp ?_ id⟩
      rintro ⟨k1, k2⟩
      exact ⟨fun x hx => k1 x (hx.imp id fun h => ⟨List.mem_of_mem_erase h.1, h.2⟩), k2⟩
    have cl := sd'.close hc hS hT hF c₀ (hb.clock.pop e) ho hgr sd.nodup
      (fun x hv hx => tr.full x hv (fun hm => absurd (hall x hm) (not_le.mpr (by
        rw [show c.s.evStart x = p from hx]; exact hlt))) hx) hb.clash
      (fun i hi j hj h1 h2 h3 => m.base.past i hi j hj h1 p h2 h3 hlt) ord hns
    refine finish m ⟨cl.state, cl.emitted, fun x hv hx => cl.found x hv ?_⟩ ?_
    · rw [SameShape.evStart shape] at hx ⊢
      have hv' : c.s.Valid x := by
        cases x with
        | left i => exact (show i < c.s.nextLeft from shape.nextLeft ▸ hv)
        | right i => exact (show i < c.s.nextRight from shape.nextRight ▸ hv)
      exact hb.popped x hv' fun hm => absurd (hall x hm) (not_le.mpr hx)
    · rw [hg]; exact List.nodup_singleton e

theorem Reaches.wideAt {context : Context K} (hc : context.Exact) {stopX : K} {s : State K}
    (h : s.Fresh) (c : Clock ε P s) (hcl : ¬ Clash s) (hS : s.operand true = S)
    (hT : s.operand false = T) (hns : ¬ SharesPiece S T)
    (hl : ∀ w, w ∈ l ↔ ∃ j < s.nextLeft, w = s.seg j) (sep : Separate s)
    {e : Ev} (he : peek? context s = some e)
    {d : Config K} {ems : List (Emitted K)}
    (hr : Reaches true context stopX (initial context s) ems d) {p : Point K} (hp : d.start = some p) :
    WideAt l s S T d ems p := by
  induction hr generalizing p with
  | refl =>
    refine ⟨⟨fun i hi hx => ?_, by simp, fun x hv hx => ?_⟩, List.nodup_nil,
      ⟨fun i hi _ => .inl ⟨i, hi, rfl⟩, by simp [initial], .inl rfl⟩⟩
    · rw [show ((initial context s).s.lefts i).relation = .disjoint from h.relation i hi] at hx
      cases hx
    · have := (track_initial h c hcl he).start
      rw [hp] at this
      obtain rfl := Option.some.inj this
      refine absurd (peek?_le he x ?_) (not_le.mpr hx)
      cases x with
      | left i => exact h.lefts i hv
      | right i => exact h.rights i (h.nextRight ▸ hv)
  | tail h1 h2 ih =>
    obtain ⟨q, tr, -⟩ := h1.track hc h c hcl he
    obtain ⟨hi, hruns⟩ := h1.inv hc (initial_inv context h.wf)
    exact (ih tr.start).step hc hi h c hruns hS hT hns hl sep tr h2 hp

/-- The crossings the linear queue reports. -/
theorem sweep_wide {context : Context K} (hc : context.Exact) (stopX : K)
    {s f : State K} (h : s.Fresh) (hcl : ¬ Clash s)
    (hns : ¬ SharesPiece (s.operand true) (s.operand false))
    (hl : ∀ w, w ∈ l ↔ ∃ j < s.nextLeft, w = s.seg j)
    (hf : (sweep true context stopX s).2 = .ok f) :
    (∀ em ∈ (sweep true context stopX s).1, em.relation = .cross →
      ∃ p, InnerMeet s p ∨ WidelyCrossesAt l (s.operand true) (s.operand false) p) ∧
    ∀ p, WidelyCrossesAt l (s.operand true) (s.operand false) p →
      p.x ≤ stopX → ∃ em ∈ (sweep true context stopX s).1, Big em.relation := by
  obtain ⟨P, hP, -⟩ := exists_breakPoints h.wf
  obtain ⟨ε, hε⟩ := exists_inclination P
  have c : Clock ε P s := ⟨h.wf, hP, hε⟩
  have sep := separate_of hcl hns
  rcases sweep_ends true hc stopX h.wf h.length with ⟨ems, d, h1, h2, h3, h4⟩ | ⟨h1, -⟩
  swap
  · rw [h1] at hf; cases hf
  obtain ⟨hd, hruns⟩ := h1.inv hc (initial_inv context h.wf)
  have hruns : Runs s d.s := hruns
  have beyond := sweepStep_beyond h2
  rw [h3]
  cases he : peek? context s with
  | none =>
    obtain ⟨rfl, rfl⟩ := h1.stays (by unfold sweepStep; simp [initial, he])
    have e1 : (closeGroup true context (initial context s).s (initial context s).group) = ([], s) := rfl
    rw [e1]
    refine ⟨by simp, fun p hp => ?_⟩
    obtain ⟨a, b, u, v, h5, -⟩ := hp.crossesAt
    obtain ⟨i, hi, -⟩ := h5 (Segment.start_mem _)
    have := h.lefts i hi
    rw [peek?_none he] at this
    cases this
  | some e₀ =>
    obtain ⟨p, tr, hx⟩ := h1.track hc h c hcl he
    have at' := h1.wideAt hc h c hcl rfl rfl hns hl sep he tr.start
    have hb := tr.moving.base
    have cd := hb.clock
    have hgr : GroupOK d.s p d.group := hd.group p tr.start
    obtain ⟨o, ho⟩ := hruns.refines c.wf
    have resolved := tr.resolved context beyond
    have handled : ∀ x, d.s.Valid x → (d.s.evStart x).x ≤ stopX → x ∉ d.s.queue := fun x _ hle hm =>
      absurd (beyond x hm) (not_lt.mpr hle)
    have fin : WideOK l s (s.operand true) (s.operand false) (closeGroup true context d.s d.group).2
        (fun x => x.x ≤ stopX) (ems ++ (closeGroup true context d.s d.group).1) := by
      have u := (closeGroup_up true context d.s d.group).1
      have valid : ∀ x, (closeGroup true context d.s d.group).2.Valid x → d.s.Valid x := by
        intro x hv
        cases x with
        | left i => exact (show i < d.s.nextLeft from u.shape.nextLeft ▸ hv)
        | right i => exact (show i < d.s.nextRight from u.shape.nextRight ▸ hv)
      by_cases hpx : p.x ≤ stopX
      · have cl := at'.ok.close hc rfl rfl h c cd ho hgr at'.nodup
          (fun x hv hx => tr.full x hv (handled x hv (by rw [hx]; exact hpx)) hx) hb.clash
          (fun i hi j hj h1 h2 h3 => resolved.past i hi j hj h1 p h2 h3 hpx) at'.met.order hns
        refine ⟨cl.state, cl.emitted, fun x hv hx => cl.found x hv ?_⟩
        rw [SameShape.evStart u.shape] at hx ⊢
        exact hb.popped x (valid x hv) (handled x (valid x hv) hx)
      · have hg := hx.resolve_left hpx
        have hcg : closeGroup true context d.s d.group = ([], d.s) := by rw [hg]; rfl
        rw [hcg, List.append_nil]
        refine ⟨at'.ok.state, at'.ok.emitted, fun x hv hx => at'.ok.found x hv ?_⟩
        have := hb.popped x hv (handled x hv hx)
        refine lt_of_le_of_ne this fun e => hpx ?_
        rw [← e]; exact hx
    refine ⟨fin.emitted, fun y hy hle => ?_⟩
    have u := (closeGroup_up true context d.s d.group).1
    obtain ⟨a, b, x, v, h5, -, -, h6, h7, -⟩ := id hy.crossesAt.symm
    have key : ∃ e, d.s.Valid e ∧ d.s.evStart e = y := by
      have pT : y ∈ d.s.operand false := by rw [ho.operand]; exact h5 (Segment.start_mem _)
      have pS : y ∈ d.s.operand true := by rw [ho.operand]; exact h6 (Segment.start_mem _)
      obtain ⟨i, hi, bi, mi⟩ := pT
      obtain ⟨j, hj, bj, mj⟩ := pS
      have hno : ¬ SharesPiece (d.s.seg i).pts (d.s.seg j).pts := by
        rintro ⟨w, hw, k1, k2⟩
        refine hns ⟨w, hw, ?_, ?_⟩
        · rw [← ho.operand, ← bj]; exact k2.trans (seg_subset_operand d.s hj)
        · rw [← ho.operand, ← bi]; exact k1.trans (seg_subset_operand d.s hi)
      rcases endpoint_of_meeting cd (fun i hi j hj h1 h2 h3 => resolved.past i hi j hj h1 y h2 h3 hle)
        hi hj mi mj hno with e | e
      · exact ⟨.left i, hi, e.symm⟩
      · exact ⟨.right (d.s.lefts i).right, (cd.wf.leftRight i hi).1, e.symm⟩
    obtain ⟨e, hv, rfl⟩ := key
    have hv' : (closeGroup true context d.s d.group).2.Valid e := by
      cases e with
      | left i => exact (show i < _ from u.shape.nextLeft ▸ hv)
      | right i => exact (show i < _ from u.shape.nextRight ▸ hv)
    have := fin.found e hv'
    rw [SameShape.evStart u.shape] at this
    exact this hle hy

open processing Props

/-- `process_open_linear_queue` answers `CROSS` exactly if segments of the operands have a common inner
point, or the operands cross at a widest angle. -/
theorem runOpenLinear_wide {context : Context K} (hc : context.Exact) {s : State K}
    {G T : List (Segment K)} (h : Registered s G T)
    (vG : SegmentsValid G) (vT : SegmentsValid T) {mg mt : K}
    (hg : ∀ x ∈ segsPts G, x.x ≤ mg) (ht : ∀ x ∈ segsPts T, x.x ≤ mt) {r : Relation}
    (hr : runOpenLinear context s (min mg mt) = .ok r) (hns : ¬ SharesPiece (segsPts T) (segsPts G)) :
    (r = .cross → ∃ p, (∃ u ∈ T, ∃ v ∈ G, u.Inner p ∧ v.Inner p) ∨
      WidelyCrossesAt (T ++ G) (segsPts T) (segsPts G) p) ∧
    ((∃ p, (∃ u ∈ T, ∃ v ∈ G, u.Inner p ∧ v.Inner p) ∨
        WidelyCrossesAt (T ++ G) (segsPts T) (segsPts G) p) →
      r ≠ .touch ∧ r ≠ .disjoint) := by
  unfold runOpenLinear at hr
  have hcl := h.no_clash vG vT
  obtain ⟨f, hf⟩ : ∃ f, (sweep true context (min mg mt) s).2 = .ok f := by
    rcases sweep_ends true hc (min mg mt) h.fresh.wf h.fresh.length with
      ⟨ems, d, -, -, -, h4⟩ | ⟨-, h2⟩
    · exact ⟨_, h4⟩
    · exact absurd h2 hcl
  have find : ∀ (b : Bool) (l : List (Segment K)), ((s.segs b).map Segment.pts).Perm (l.map Segment.pts) →
      (∀ w ∈ l, ∃ i < s.nextLeft, (s.lefts i).fromTest = b ∧ (s.seg i).pts = w.pts) ∧
      ∀ i < s.nextLeft, (s.lefts i).fromTest = b → ∃ w ∈ l, w.pts = (s.seg i).pts := by
    intro b l hl
    constructor
    · intro w hw
      obtain ⟨w', hw', e⟩ := List.mem_map.mp (hl.symm.subset (List.mem_map.mpr ⟨w, hw, rfl⟩))
      obtain ⟨i, hi, hb, rfl⟩ := mem_segs.mp hw'
      exact ⟨i, hi, hb, e⟩
    · intro i hi hb
      obtain ⟨w, hw, e⟩ := List.mem_map.mp (hl.subset (List.mem_map.mpr
        ⟨_, mem_segs.mpr ⟨i, hi, hb, rfl⟩, rfl⟩))
      exact ⟨w, hw, e⟩
  obtain ⟨fT, bT⟩ := find true T h.test
  obtain ⟨fG, bG⟩ := find false G h.goal
  set l := (List.range s.nextLeft).map s.seg with hldef
  have hl : ∀ w, w ∈ l ↔ ∃ j < s.nextLeft, w = s.seg j := by
    intro w
    rw [hldef, List.mem_map]
    constructor
    · rintro ⟨j, hj, rfl⟩; exact ⟨j, List.mem_range.mp hj, rfl⟩
    · rintro ⟨j, hj, rfl⟩; exact ⟨j, List.mem_range.mpr hj, rfl⟩
  have l1 : ∀ w ∈ l, ∃ w' ∈ T ++ G, w'.pts = w.pts := by
    intro w hw
    obtain ⟨j, hj, rfl⟩ := (hl w).mp hw
    cases hb : (s.lefts j).fromTest with
    | true =>
      obtain ⟨w, hw, e⟩ := bT j hj hb
      exact ⟨w, List.mem_append_left _ hw, e⟩
    | false =>
      obtain ⟨w, hw, e⟩ := bG j hj hb
      exact ⟨w, List.mem_append_right _ hw, e⟩
  have l2 : ∀ w ∈ T ++ G, ∃ w' ∈ l, w'.pts = w.pts := by
    intro w hw
    rcases List.mem_append.mp hw with hw | hw
    · obtain ⟨j, hj, -, e⟩ := fT w hw
      exact ⟨_, (hl _).mpr ⟨j, hj, rfl⟩, e⟩
    · obtain ⟨j, hj, -, e⟩ := fG w hw
      exact ⟨_, (hl _).mpr ⟨j, hj, rfl⟩, e⟩
  rw [← h.goalPts] at hg hns ⊢
  rw [← h.testPts] at ht hns ⊢
  obtain ⟨t1, t2⟩ := sweep_wide hc (min mg mt) h.fresh hcl hns hl hf
  obtain ⟨r', hr', c1, c2, c3, c4, c5, c6, c7⟩ :=
    C28_open_linear context (sweep true context (min mg mt) s).1 f
  rw [show ((sweep true context (min mg mt) s).1, Except.ok f) = sweep true context (min mg mt) s from
    by rw [← hf]] at hr'
  rw [hr'] at hr
  obtain rfl := Except.ok.inj hr
  refine ⟨fun e => ?_, ?_⟩
  · obtain ⟨-, -, -, em, hem, hx⟩ := c5.mp e
    obtain ⟨p, hp⟩ := t1 em hem hx
    refine ⟨p, hp.imp ?_ (·.of_pts l1 l2)⟩
    rintro ⟨i, hi, j, hj, bi, bj, ii, ij⟩
    obtain ⟨u, hu, eu⟩ := bT i hi bi
    obtain ⟨v, hv, ev⟩ := bG j hj bj
    exact ⟨u, hu, v, hv, ii.of_subset eu.symm.subset, ij.of_subset ev.symm.subset⟩
  · rintro ⟨p, hp⟩
    obtain ⟨em, hem, hb⟩ : ∃ em ∈ (sweep true context (min mg mt) s).1, Big em.relation := by
      rcases hp with ⟨u, hu, v, hv, iu, iv⟩ | hp
      · obtain ⟨i, hi, bi, ei⟩ := fT u hu
        obtain ⟨j, hj, bj, ej⟩ := fG v hv
        have ii := iu.of_subset ei.symm.subset
        have ij := iv.of_subset ej.symm.subset
        have si := seg_subset_operand s hi
        have sj := seg_subset_operand s hj
        rw [bi] at si
        rw [bj] at sj
        refine sweep_crossed true hc _ h.fresh hcl hf hi hj (by rw [bi, bj]; simp) ii ij
          (le_min (hg p (sj ij.1)) (ht p (si ii.1))) fun hs => hns (hs.mono si sj)
      · refine t2 p (hp.of_pts l2 l1) ?_
        obtain ⟨a, b, u, v, k1, -, k3, -⟩ := hp.crossesAt
        exact le_min (hg p (k3 (Segment.start_mem _))) (ht p (k1 (Segment.start_mem _)))
    refine ⟨fun e => ?_, fun e => ?_⟩
    · obtain ⟨-, -, k, -⟩ := c6.mp e
      rcases hb with hb | hb
      · exact (k em hem).2 hb
      · exact (k em hem).1 hb
    · have := (c7.mp e).2.2 em hem
      rcases hb with hb | hb <;> rw [this] at hb <;> cases hb

end

end eventsQueue

end Orient
