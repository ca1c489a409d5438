import Verif.Lemmas.Sweep.Describe
import Verif.Lemmas.Sweep.Sharp

/-! Reported crossings are real. -/

set_option linter.unusedSectionVars false

namespace Orient.eventsQueue

variable {K : Type} [Field K] [LinearOrder K] [IsStrictOrderedRing K]

open Segment State

/-- Segments of different operands, not on one line, meet at a point which is not an end of any of
them. -/
def Crossing (ε : K) (s : State K) : Prop :=
  ∃ u < s.nextLeft, ∃ v < s.nextLeft, (s.lefts u).fromTest = true ∧ (s.lefts v).fromTest = false ∧
    ¬ Same ε (s.seg u) (s.seg v) ∧ ∃ p, (s.seg u).Inner p ∧ (s.seg v).Inner p

/-- The reason for which a piece gets the relation CROSS. -/
def CrossFrom (s : State K) (group : List Ev) (i : Nat) : Prop :=
  ∃ e ∈ group, s.leftOf e = i ∧ ∃ x ∈ group, s.evFromTest x ≠ s.evFromTest e ∧
    s.evStart e ≠ s.evOriginalStart e ∧ s.evStart x ≠ s.evOriginalStart x

theorem SegmentsRelation.cross_max {a b : SegmentsRelation} (h : a.max b = .cross) :
    a = .cross ∨ b = .cross := by
  revert h
  cases a <;> cases b <;> simp [SegmentsRelation.max, SegmentsRelation.toNat]

theorem raiseRelation_cross {s : State K} {i k : Nat} {r : SegmentsRelation}
    (h : ((s.raiseRelation i r).lefts k).relation = .cross) :
    (s.lefts k).relation = .cross ∨ (k = i ∧ r = .cross) := by
  simp only [raiseRelation, setLeft] at h
  split at h
  · next e =>
    rcases SegmentsRelation.cross_max h with h | h
    · exact .inl h
    · exact .inr ⟨e, h⟩
  · exact .inl h

theorem setOverlap_cross {s : State K} {i k : Nat}
    (h : ((s.setRelation i .overlap).lefts k).relation = .cross) : (s.lefts k).relation = .cross := by
  simp only [setRelation, setLeft] at h
  split at h
  · cases h
  · exact h

theorem CrossFrom.up {s t : State K} (h : Up s t) {group : List Ev} {i : Nat}
    (hx : CrossFrom t group i) : CrossFrom s group i := by
  obtain ⟨e, he, h1, x, hx, h2, h3, h4⟩ := hx
  rw [h.evFromTest, h.evFromTest] at h2
  rw [SameShape.evStart h.shape, evOriginalStart_shape h.shape] at h3 h4
  exact ⟨e, he, (h.leftOf e).symm.trans h1, x, hx, h2, h3, h4⟩

theorem CrossFrom.mono {s : State K} {group group' : List Ev} (h : ∀ e ∈ group, e ∈ group') {i : Nat}
    (hx : CrossFrom s group i) : CrossFrom s group' i := by
  obtain ⟨e, he, h1, x, hx, h2⟩ := hx
  exact ⟨e, h e he, h1, x, h x hx, h2⟩

theorem completePair_cross {s : State K} {e e' : Ev} {k : Nat}
    (h : ((completePair s e e').lefts k).relation = .cross) :
    (s.lefts k).relation = .cross ∨ CrossFrom s [e, e'] k := by
  unfold completePair at h
  simp only at h
  split_ifs at h with h1 h2 h3
  · exact .inl h
  · exact .inl (setOverlap_cross (setOverlap_cross h))
  · rcases raiseRelation_cross h with h | ⟨-, h⟩
    · rcases raiseRelation_cross h with h | ⟨-, h⟩
      · exact .inl h
      · cases h
    · cases h
  · push Not at h3
    rcases raiseRelation_cross h with h | ⟨rfl, -⟩
    · rcases raiseRelation_cross h with h | ⟨rfl, -⟩
      · exact .inl h
      · exact .inr ⟨e, by simp, rfl, e', by simp, h1, h3.1, h3.2⟩
    · exact .inr ⟨e', by simp, rfl, e, by simp, fun h => h1 h.symm, h3.2, h3.1⟩

theorem foldl_completePair_cross {s : State K} {e : Ev} {l : List Ev} {k : Nat}
    (h : ((l.foldl (fun s second => completePair s e second) s).lefts k).relation = .cross) :
    (s.lefts k).relation = .cross ∨ CrossFrom s (e :: l) k := by
  induction l generalizing s with
  | nil => exact .inl h
  | cons y l ih =>
    rcases ih h with h | h
    · rcases completePair_cross h with h | h
      · exact .inl h
      · exact .inr (h.mono (by simp))
    · refine .inr ((h.up (completePair_up s e y).1).mono fun x hx => ?_)
      rcases List.mem_cons.mp hx with rfl | hx
      · simp
      · simp [hx]

theorem completeEventsRelations_cross (s : State K) (group : List Ev) :
    (∀ k, ((completeEventsRelations s group).2.lefts k).relation = .cross →
      (s.lefts k).relation = .cross ∨ CrossFrom s group k) ∧
    (∀ em ∈ (completeEventsRelations s group).1, em.relation = .cross →
      (s.lefts em.event).relation = .cross ∨ CrossFrom s group em.event) := by
  induction group generalizing s with
  | nil => exact ⟨fun k h => .inl h, by simp [completeEventsRelations]⟩
  | cons e group ih =>
    simp only [completeEventsRelations]
    have u := (foldl_completePair_up s e group).1
    have back : ∀ k, ((group.foldl (fun s second => completePair s e second) s).lefts k).relation
        = .cross ∨ CrossFrom (group.foldl (fun s second => completePair s e second) s) group k →
        (s.lefts k).relation = .cross ∨ CrossFrom s (e :: group) k := by
      rintro k (h | h)
      · exact foldl_completePair_cross h
      · exact .inr ((h.up u).mono fun x hx => List.mem_cons_of_mem _ hx)
    obtain ⟨i1, i2⟩ := ih (group.foldl (fun s second => completePair s e second) s)
    refine ⟨fun k h => back k (i1 k h), fun em hem h => ?_⟩
    rcases List.mem_cons.mp hem with rfl | hem
    · exact back _ (.inl h)
    · exact back _ (i2 em hem h)

theorem closeGroup_cross (context : Context K) (s : State K) (group : List Ev) :
    (∀ k, ((closeGroup false context s group).2.lefts k).relation = .cross →
      (s.lefts k).relation = .cross ∨ CrossFrom s group k) ∧
    (∀ em ∈ (closeGroup false context s group).1, em.relation = .cross →
      (s.lefts em.event).relation = .cross ∨ CrossFrom s group em.event) :=
  completeEventsRelations_cross s group

section

variable {ε : K} {P : Finset (Point K)} {s₀ s : State K} {o : Nat → Nat} {p : Point K}
  {group : List Ev}

/-- An event which is not at an end of its segment. -/
theorem inner_of_event (hF : s₀.Fresh) (c₀ : Clock ε P s₀) (hr : Refines s₀ s o) (hw : s.WF) {e : Ev}
    (hv : s.Valid e) (h : s.evStart e ≠ s.evOriginalStart e) :
    (s₀.seg (o (s.leftOf e))).Inner (s.evStart e) := by
  have hi : s.leftOf e < s.nextLeft := by
    cases e with
    | left i => exact hv
    | right r => exact (hw.rightLeft r hv).1
  have hu := hr.lt _ hi
  have hsub := hr.subset _ hi
  have hlt := hw.lt _ hi
  cases e with
  | left i =>
    have hi : i < s.nextLeft := hi
    have h : (s.lefts i).start ≠ (s.lefts i).originalStart := h
    rw [hr.originalStart i hi, hF.originalStart _ (hr.lt i hi)] at h
    refine ⟨hsub (start_mem _), ?_⟩
    rintro (e | e)
    · exact h e
    · have h2 := c₀.le_end hu (hsub (finish_mem _))
      have e : (s.lefts i).start = s₀.leftEnd (o i) := e
      have hlt : (s.lefts i).start < s.leftEnd i := hlt
      rw [e] at hlt
      exact absurd h2 (not_le.mpr hlt)
  | right r =>
    have hv : r < s.nextRight := hv
    obtain ⟨hi, hrt⟩ := hw.rightLeft r hv
    have h : (s.rights r).start ≠ (s.rights r).originalStart := h
    have h1 := hr.originalEnd _ hi
    rw [hrt, hF.right _ (hr.lt _ hi), hF.originalEnd _ (hr.lt _ hi)] at h1
    have h2 : s₀.leftEnd (o (s.rights r).left) = (s₀.rights (o (s.rights r).left)).start := by
      unfold State.leftEnd; rw [hF.right _ (hr.lt _ hi)]
    have h3 := hw.leftEnd_left hv
    refine ⟨?_, ?_⟩
    · have := hsub (finish_mem _)
      change s.leftEnd (s.rights r).left ∈ _ at this
      rw [h3] at this
      exact this
    · rintro (e | e)
      · have h4 := c₀.start_le hu (hsub (start_mem _))
        have e : (s.rights r).start = (s₀.lefts (o (s.rights r).left)).start := e
        have hlt : (s.lefts (s.rights r).left).start < s.leftEnd (s.rights r).left := hlt
        rw [h3, e] at hlt
        exact absurd h4 (not_le.mpr hlt)
      · have e : (s.rights r).start = s₀.leftEnd (o (s.rights r).left) := e
        exact h (e.trans (h2.trans h1.symm))

/-- Events get the relation CROSS only for crossing segments, one of which goes outside of the other
operand. -/
theorem CrossFrom.sharp (hF : s₀.Fresh) (c₀ : Clock ε P s₀) (c : Clock ε P s)
    (hr : Refines s₀ s o) (valid : GroupOK s p group) (hp : p ∈ P)
    (full : ∀ x, s.Valid x → s.evStart x = p → x ∈ group)
    (same : ∀ i < s.nextLeft, ∀ j < s.nextLeft, Same ε (s.seg i) (s.seg j) →
      (s.lefts i).start ≤ p → (s.lefts j).start ≤ p → (s.lefts i).start < s.leftEnd j →
      (s.lefts j).start < s.leftEnd i → (s.lefts i).start = (s.lefts j).start)
    (ends : ∀ i < s.nextLeft, ∀ j < s.nextLeft, Same ε (s.seg i) (s.seg j) →
      (s.lefts i).start = p → (s.lefts j).start = p → s.leftEnd i = s.leftEnd j)
    (ended : ∀ i < s.nextLeft, ∀ j < s.nextLeft, Same ε (s.seg i) (s.seg j) →
      (s.lefts i).start = (s.lefts j).start → s.leftEnd i = p → s.leftEnd j = s.leftEnd i)
    {k : Nat} (hk : CrossFrom s group k) {r : SegmentsRelation} (hrel : r = .cross)
    (marked : ∀ y ∈ group, s.evFromTest y ≠ (s.lefts k).fromTest → s.seg k = s.seg (s.leftOf y) →
      r = .overlap) : Sharp s₀ := by
  obtain ⟨e, he, rfl, x, hx, hne, h1, h2⟩ := hk
  have hw := c.wf
  obtain ⟨ve, pe⟩ := valid e he
  obtain ⟨vx, px⟩ := valid x hx
  have ie := inner_of_event hF c₀ hr hw ve h1
  have ix := inner_of_event hF c₀ hr hw vx h2
  rw [pe] at ie
  rw [px] at ix
  have he' := hw.leftOf_lt ve
  have hx' := hw.leftOf_lt vx
  have f1 := hr.fromTest _ he'
  have f2 := hr.fromTest _ hx'
  have hne : (s.lefts (s.leftOf x)).fromTest ≠ (s.lefts (s.leftOf e)).fromTest := hne
  refine ⟨_, hr.lt _ he', _, hr.lt _ hx', ?_, p, ie, ix, ?_⟩
  · rw [← f1, ← f2]; exact hne.symm
  rw [← f2, ← hr.operand]
  have hsub := hr.subset _ he'
  -- a point at a time next to `p` which is on a piece of the other operand
  have along : ∀ a : Point K, a ∈ (s.seg (s.leftOf e)).pts → p ∈ (s.seg (s.leftOf e)).pts →
      (∀ q ∈ P, p.time ε < q.time ε → a.time ε < q.time ε) →
      (∀ q ∈ P, q.time ε < p.time ε → q.time ε < a.time ε) → a.time ε ≠ p.time ε →
      (∀ j < s.nextLeft, (s.lefts j).fromTest = (s.lefts (s.leftOf x)).fromTest →
        Same ε (s.seg (s.leftOf e)) (s.seg j) → ∀ z ∈ (⟨p, a⟩ : Segment K).pts, z ≠ p →
        z ∈ (s.seg j).pts → False) →
      (s₀.seg (o (s.leftOf e))).LeavesAt p (s.operand (s.lefts (s.leftOf x)).fromTest) := by
    intro a ha hpp g1 g2 gne key
    have hps : (⟨p, a⟩ : Segment K).pts ⊆ (s.seg (s.leftOf e)).pts := pts_subset hpp ha
    refine ⟨a, fun e => gne (by rw [e]), hps.trans hsub, fun z hz hop => ?_⟩
    by_contra hzp
    obtain ⟨j, hj, bj, mj⟩ := hop
    by_cases hs : Same ε (s.seg (s.leftOf e)) (s.seg j)
    · exact key j hj bj hs z hz hzp mj
    · have hzP := c.mem he' hj hs (hps hz) mj
      obtain ⟨l, l0, l1, rfl⟩ := hz
      have time : (lerp p a l).time ε = p.time ε + l * (a.time ε - p.time ε) := by
        unfold lerp Point.time; ring
      have lpos : 0 < l := by
        refine lt_of_le_of_ne l0 fun e => hzp ?_
        subst e
        unfold lerp
        exact Point.ext (by simp) (by simp)
      rcases lt_or_gt_of_ne gne with g | g
      · have := g2 _ hzP (by rw [time]; nlinarith)
        rw [time] at this
        nlinarith
      · have := g1 _ hzP (by rw [time]; nlinarith)
        rw [time] at this
        nlinarith
  -- the times of the points of the segment
  have times : ∀ {a z : Point K}, z ∈ (⟨p, a⟩ : Segment K).pts → z ≠ p →
      (p.time ε < a.time ε → p.time ε < z.time ε ∧ z.time ε ≤ a.time ε) ∧
      (a.time ε < p.time ε → z.time ε < p.time ε ∧ a.time ε ≤ z.time ε) := by
    rintro a z ⟨l, l0, l1, rfl⟩ hzp
    have time : (lerp p a l).time ε = p.time ε + l * (a.time ε - p.time ε) := by
      unfold lerp Point.time; ring
    have lpos : 0 < l := by
      refine lt_of_le_of_ne l0 fun e => hzp ?_
      subst e
      unfold lerp
      exact Point.ext (by simp) (by simp)
    change l ≤ 1 at l1
    change (_ → _ < (lerp p a l).time ε ∧ (lerp p a l).time ε ≤ _) ∧
      (_ → (lerp p a l).time ε < _ ∧ _ ≤ (lerp p a l).time ε)
    rw [time]
    exact ⟨fun h => ⟨by nlinarith, by nlinarith⟩, fun h => ⟨by nlinarith, by nlinarith⟩⟩
  cases e with
  | left i =>
    have pe : (s.lefts i).start = p := pe
    have hi : i < s.nextLeft := he'
    obtain ⟨t, g⟩ := exists_gap ε P (p.time ε)
    have g : Gap ε P (p.time ε) t := g
    have ht := c.times hi
    have hst : (s.seg i).start = p := pe
    have hlt : p.time ε < (s.leftEnd i).time ε := by rw [← hst]; exact ht
    have hte : t < (s.leftEnd i).time ε := g.2 _ (c.points.finish i hi) hlt
    refine along ((s.seg i).pointAt ε t) (pointAt_mem ht (by rw [hst]; exact g.1.le) hte.le)
      (hst ▸ start_mem (s.seg i)) (fun q hq h => by rw [pointAt_time]; exact g.2 q hq h)
      (fun q hq h => by rw [pointAt_time]; exact h.trans g.1) (by rw [pointAt_time]; exact g.1.ne')
      fun j hj bj hs z hz hzp mj => ?_
    have hs : Same ε (s.seg i) (s.seg j) := hs
    obtain ⟨z1, z2⟩ := (times hz hzp).1 (by rw [pointAt_time]; exact g.1)
    rw [pointAt_time] at z2
    obtain ⟨m1, m2, -⟩ := (mem_pts_iff_height (c.times hj) z).mp mj
    have j1 : (s.lefts j).start ≤ p := by
      rw [← c.le_iff (c.points.start j hj) hp]; exact g.le (c.points.start j hj) (m1.trans z2)
    have j2 : p < s.leftEnd j := by
      rw [← c.lt_iff hp (c.points.finish j hj)]; exact z1.trans_le m2
    have est := same i hi j hj hs pe.le j1 (pe.trans_lt j2)
      (j1.trans_lt (pe.symm.trans_lt (hw.lt i hi)))
    have een := ends i hi j hj hs pe (est.symm.trans pe)
    have := marked (.left j) (full (.left j) hj (est.symm.trans pe)) (by
      change (s.lefts j).fromTest ≠ _
      rw [bj]; exact hne) (by
      change (⟨(s.lefts i).start, s.leftEnd i⟩ : Segment K) = ⟨(s.lefts j).start, s.leftEnd j⟩
      rw [est, een])
    rw [this] at hrel
    cases hrel
  | right q =>
    obtain ⟨i, hi⟩ : ∃ i, (s.rights q).left = i := ⟨_, rfl⟩
    have hin : i < s.nextLeft := hi ▸ he'
    have pe : s.leftEnd i = p := by rw [← hi, hw.leftEnd_left ve]; exact pe
    have hle : s.leftOf (.right q) = i := hi
    have hst : (s.lefts i).start < p := pe ▸ hw.lt i hin
    have hst' : (s.lefts i).start.time ε < p.time ε :=
      (c.lt_iff (c.points.start i hin) hp).mpr hst
    obtain ⟨t, g1, g2, g3⟩ := exists_gap_before ε P hst'
    have ht := c.times hin
    have hfi : (s.seg i).finish = p := pe
    rw [hle] at along hne marked ⊢
    refine along ((s.seg i).pointAt ε t) (pointAt_mem ht g1.le (by rw [hfi]; exact g2.le))
      (hfi ▸ finish_mem (s.seg i)) (fun q hq h => by rw [pointAt_time]; exact g2.trans h)
      (fun q hq h => by rw [pointAt_time]; exact g3 q hq h) (by rw [pointAt_time]; exact g2.ne)
      fun j hj bj hs z hz hzp mj => ?_
    obtain ⟨z1, z2⟩ := (times hz hzp).2 (by rw [pointAt_time]; exact g2)
    rw [pointAt_time] at z2
    obtain ⟨m1, m2, -⟩ := (mem_pts_iff_height (c.times hj) z).mp mj
    have j1 : (s.lefts j).start < p := by
      rw [← c.lt_iff (c.points.start j hj) hp]; exact m1.trans_lt z1
    have j2 : p ≤ s.leftEnd j := by
      rw [← c.le_iff hp (c.points.finish j hj)]
      by_contra hn
      exact absurd (z2.trans m2) (not_le.mpr (g3 _ (c.points.finish j hj) (not_le.mp hn)))
    have est := same i hin j hj hs hst.le j1.le (hst.trans_le j2) (by rw [pe]; exact j1)
    have een := ended i hin j hj hs est pe
    obtain ⟨r1, r2⟩ := hw.leftRight j hj
    have := marked (.right (s.lefts j).right) (full (.right (s.lefts j).right) r1 (een.trans pe)) (by
      change (s.lefts (s.rights (s.lefts j).right).left).fromTest ≠ _
      rw [r2, bj]; exact hne) (by
      change s.seg i = s.seg (s.rights (s.lefts j).right).left
      rw [r2]
      change (⟨(s.lefts i).start, s.leftEnd i⟩ : Segment K) = ⟨(s.lefts j).start, s.leftEnd j⟩
      rw [est, een])
    rw [this] at hrel
    cases hrel

/-- The segments are not on one line. -/
theorem Sharp.crossing (c : Clock ε P s) (h : Sharp s) : Crossing ε s := by
  obtain ⟨u, hu, v, hv, hne, p, pu, pv, a, ha, hsub, hfree⟩ := h
  have no : ¬ Same ε (s.seg u) (s.seg v) := by
    intro hs
    obtain ⟨k1, k2, k3⟩ := (mem_pts_iff_height (c.times hu) p).mp pu.1
    obtain ⟨a1, a2, a3⟩ := (mem_pts_iff_height (c.times hu) a).mp (hsub (finish_mem _))
    obtain ⟨l1, l2, l3⟩ := (mem_pts_iff_height (c.times hv) p).mp pv.1
    have w1 : (s.seg v).start.time ε < p.time ε := lt_of_le_of_ne l1 fun e => pv.2 (.inl
      (Point.ext_time e.symm (by rw [l3, ← e, height_start])))
    have w2 : p.time ε < (s.seg v).finish.time ε := lt_of_le_of_ne l2 fun e => pv.2 (.inr
      (Point.ext_time e (by rw [l3, e, height_finish (c.times hv)])))
    have hne : a.time ε ≠ p.time ε := fun e => ha (Point.ext_time e (by rw [a3, k3, e]))
    obtain ⟨b, hb, hbp, b1, b2⟩ := exists_near ε w1 w2 hne
    obtain ⟨-, -, m3⟩ := (mem_pts_iff_height (c.times hu) b).mp (hsub hb)
    refine hbp (congrArg (Point.time ε) (hfree b hb ⟨v, hv, rfl, ?_⟩))
    exact (mem_pts_iff_height (c.times hv) b).mpr ⟨b1, b2, m3.trans (hs.at _)⟩
  cases hb : (s.lefts u).fromTest with
  | true =>
    rw [hb] at hne
    exact ⟨u, hu, v, hv, hb, by simpa using hne.symm, no, p, pu, pv⟩
  | false =>
    rw [hb] at hne
    exact ⟨v, hv, u, hu, by simpa using hne.symm, hb, fun h => no h.symm, p, pv, pu⟩

/-- The relations CROSS are right. -/
structure CrossOK (s₀ s : State K) (ems : List (Emitted K)) : Prop where
  state : ∀ i < s.nextLeft, (s.lefts i).relation = .cross → Sharp s₀
  emitted : ∀ em ∈ ems, em.relation = .cross → Sharp s₀

theorem CrossOK.close {context : Context K} {ems : List (Emitted K)} (h : CrossOK s₀ s ems)
    (hF : s₀.Fresh) (c₀ : Clock ε P s₀) (c : Clock ε P s)
    (hr : Refines s₀ s o) (valid : GroupOK s p group) (hp : p ∈ P)
    (full : ∀ x, s.Valid x → s.evStart x = p → x ∈ group)
    (same : ∀ i < s.nextLeft, ∀ j < s.nextLeft, Same ε (s.seg i) (s.seg j) →
      (s.lefts i).start ≤ p → (s.lefts j).start ≤ p → (s.lefts i).start < s.leftEnd j →
      (s.lefts j).start < s.leftEnd i → (s.lefts i).start = (s.lefts j).start)
    (ends : ∀ i < s.nextLeft, ∀ j < s.nextLeft, Same ε (s.seg i) (s.seg j) →
      (s.lefts i).start = p → (s.lefts j).start = p → s.leftEnd i = s.leftEnd j)
    (ended : ∀ i < s.nextLeft, ∀ j < s.nextLeft, Same ε (s.seg i) (s.seg j) →
      (s.lefts i).start = (s.lefts j).start → s.leftEnd i = p → s.leftEnd j = s.leftEnd i) :
    CrossOK s₀ (closeGroup false context s group).2
      (ems ++ (closeGroup false context s group).1) := by
  obtain ⟨u, a1, a2⟩ := closeGroup_up false context s group
  obtain ⟨b1, b2⟩ := closeGroup_cross context s group
  have lt : ∀ y ∈ group, s.leftOf y < s.nextLeft := by
    intro y hy
    have hv := (valid y hy).1
    cases y with
    | left i => exact hv
    | right r => exact (c.wf.rightLeft r hv).1
  refine ⟨fun i hi hx => ?_, fun em hem hx => ?_⟩
  · rcases b1 i hx with h1 | h1
    · exact h.state i (u.shape.nextLeft ▸ hi) h1
    · refine h1.sharp hF c₀ c hr valid hp full same ends ended hx fun y hy hne hs => ?_
      obtain ⟨e, he, rfl, -⟩ := h1
      obtain ⟨em, -, t, u1, ut, -, hm⟩ := a2 e he
      have := (hm y hy hne).overlap (by
        rw [u1.leftOf, u1.leftOf, u1.shape.seg, u1.shape.seg]; exact hs)
      rw [u1.leftOf] at this
      exact ut.overlap _ this
  · rcases List.mem_append.mp hem with hem | hem
    · exact h.emitted em hem hx
    · obtain ⟨e, he, t, u1, -, rfl, hm⟩ := a1 em hem
      rcases b2 _ hem hx with h1 | h1
      · exact h.state _ (lt e he) h1
      · refine h1.sharp hF c₀ c hr valid hp full same ends ended hx fun y hy hne hs => ?_
        have := (hm y hy hne).overlap (by
          rw [u1.leftOf, u1.leftOf, u1.shape.seg, u1.shape.seg]; exact hs)
        rw [u1.leftOf] at this
        exact this

theorem Cuts.relation_from {p : Point K} {I : Nat → Prop} {s t : State K} (h : Cuts p I s t)
    (hw : s.WF) {i : Nat} (hi : i < t.nextLeft) :
    ∃ j < s.nextLeft, (t.lefts i).relation = (s.lefts j).relation := by
  induction h generalizing i with
  | refl => exact ⟨i, hi, rfl⟩
  | flags _ h2 ih => rw [h2.relation]; exact ih (h2.shape.nextLeft ▸ hi)
  | @cut t k x h1 _ h3 _ _ _ ih =>
    have hw' := h1.elems.wf hw
    by_cases hn : i = t.nextLeft
    · subst hn
      obtain ⟨j, hj, e⟩ := ih h3
      exact ⟨j, hj, by simpa [State.divide] using e⟩
    · have hi' : i < t.nextLeft := lt_of_le_of_ne (Nat.lt_succ_iff.mp hi) hn
      obtain ⟨j, hj, e⟩ := ih hi'
      refine ⟨j, hj, ?_⟩
      by_cases hik : i = k
      · subst hik
        rw [divide_lefts_self hw' hi']; exact e
      · rw [divide_lefts_other hw' h3 x hi' hik]; exact e

theorem CrossOK.step {context : Context K} (hc : context.Exact) {stopX : K} {c d : Config K}
    (hi : Inv c) (hF : s₀.Fresh) (c₀ : Clock ε P s₀) (hr : Runs s₀ c.s)
    {ems ems' : List (Emitted K)} {p : Point K}
    (tr : Track ε P c ems p) (sd : CrossOK s₀ c.s ems)
    (h : sweepStep false context stopX c = some (ems', .ok d)) :
    CrossOK s₀ d.s (ems ++ ems') := by
  obtain ⟨e, t, it, hh, hel, -⟩ := sweepStep_ok hc hi h
  have hpk := it.peek
  have hmem := peek?_mem hpk
  have hb := tr.moving.base
  have hw := hi.wf
  obtain ⟨q, hq⟩ : ∃ q, c.s.evStart e = q := ⟨_, rfl⟩
  have shape := (it.rels hi).shape
  have ct : Clock ε P t := (hb.clock.pop e).elems (it.rels hi).elems
  have finish : Moving ε P c.s c.line q → CrossOK s₀ t (ems ++ ems') →
      CrossOK s₀ d.s (ems ++ ems') := by
    intro hm h
    obtain ⟨m, cuts⟩ := hm.handle hc hpk hq shape hh
    refine ⟨fun i hi hx => ?_, h.emitted⟩
    obtain ⟨j, hj, e⟩ := Cuts.relation_from cuts ct.wf hi
    exact h.state j hj (e.symm.trans hx)
  rcases it.closed with ⟨hs, rfl, rfl, -, hg⟩ | ⟨hs, rfl, rfl, -, hg⟩
  · rw [hq, tr.start] at hs
    obtain rfl := Option.some.inj hs
    rw [List.append_nil] at finish ⊢
    exact finish tr.moving ⟨sd.state, sd.emitted⟩
  · rw [hq, tr.start] at hs
    have hlt : p < q := lt_of_le_of_ne (hq ▸ hb.queue e hmem) fun e => hs (congrArg some e.symm)
    have hall : ∀ x ∈ c.s.queue, q ≤ c.s.evStart x := hq ▸ peek?_le hpk
    obtain ⟨m, -⟩ := tr.moving.advance hlt hall ⟨e, hmem, hq⟩
    have hgr : GroupOK (popped c.s e) p c.group := hi.group p tr.start
    have hrp : Runs s₀ (popped c.s e) := Runs.pop e hr hmem
    obtain ⟨o, ho⟩ := hrp.refines c₀.wf
    have sd' : CrossOK s₀ (popped c.s e) ems := ⟨sd.state, sd.emitted⟩
    refine finish m (sd'.close hF c₀ (hb.clock.pop e) ho hgr hb.mem
      (fun x hv hx => tr.full x hv (fun hm => absurd (hall x hm) (not_le.mpr (by
        rw [show c.s.evStart x = p from hx]; exact hlt))) hx)
      (fun i hi j hj h1 h2 h3 h4 h5 => m.base.pastSame i hi j hj h1 (h2.trans_lt hlt)
        (h3.trans_lt hlt) h4 h5)
      (fun i hi j hj h1 h2 h3 => tr.moving.ends (fun x hx => hlt.trans_le (hall x hx)) hi hj h1 h2 h3)
      (fun i hi j hj h1 h2 h3 => m.base.pastEnd i hi j hj h1 h2 (lt_of_eq_of_lt h3 hlt)))

theorem Reaches.crossOK {context : Context K} (hc : context.Exact) {stopX : K} {s : State K}
    (h : s.Fresh) (c : Clock ε P s) (hcl : ¬ Clash s) {e : Ev} (he : peek? context s = some e)
    {d : Config K} {ems : List (Emitted K)}
    (hr : Reaches false context stopX (initial context s) ems d) : CrossOK s d.s ems := by
  induction hr with
  | refl =>
    refine ⟨fun i hi hx => ?_, by simp⟩
    rw [show ((initial context s).s.lefts i).relation = .disjoint from h.relation i hi] at hx
    cases hx
  | tail h1 h2 ih =>
    obtain ⟨p, tr, -⟩ := h1.track hc h c hcl he
    obtain ⟨hi, hruns⟩ := h1.inv hc (initial_inv context h.wf)
    exact ih.step hc hi h c hruns tr h2

/-- Reported crossings are real, and one of the crossing segments goes outside of the other operand. -/
theorem sweep_crossing_sharp {context : Context K} (hc : context.Exact) (stopX : K)
    {s f : State K} (h : s.Fresh) (c : Clock ε P s) (hcl : ¬ Clash s)
    (hf : (sweep false context stopX s).2 = .ok f) :
    ∀ em ∈ (sweep false context stopX s).1, em.relation = .cross → Sharp s := by
  rcases sweep_ends false hc stopX h.wf h.length with ⟨ems, d, h1, h2, h3, h4⟩ | ⟨h1, -⟩
  swap
  · rw [h1] at hf; cases hf
  obtain ⟨hd, hruns⟩ := h1.inv hc (initial_inv context h.wf)
  have hruns : Runs s d.s := hruns
  have beyond := sweepStep_beyond h2
  rw [h3]
  cases he : peek? context s with
  | none =>
    obtain ⟨rfl, rfl⟩ := h1.stays (by unfold sweepStep; simp [initial, he])
    have e1 : (closeGroup false context (initial context s).s (initial context s).group) = ([], s) := rfl
    rw [e1]
    simp
  | some e₀ =>
    have ok := h1.crossOK hc h c hcl he
    obtain ⟨p, tr, hx⟩ := h1.track hc h c hcl he
    have hb := tr.moving.base
    have cd := hb.clock
    have hgr : GroupOK d.s p d.group := hd.group p tr.start
    obtain ⟨o, ho⟩ := hruns.refines c.wf
    have resolved := tr.resolved context beyond
    have handled : ∀ x, d.s.Valid x → (d.s.evStart x).x ≤ stopX → x ∉ d.s.queue := fun x _ hle hm =>
      absurd (beyond x hm) (not_lt.mpr hle)
    by_cases hpx : p.x ≤ stopX
    · refine (ok.close h c cd ho hgr hb.mem (fun x hv hx => tr.full x hv ?_ hx) ?_ ?_ ?_).emitted
      · exact handled x hv (by rw [hx]; exact hpx)
      · intro i hi j hj hs h1 h2
        exact resolved.same i hi j hj hs ((x_le_of_le h1).trans hpx) ((x_le_of_le h2).trans hpx)
      · intro i hi j hj hs h1 h2
        refine tr.moving.ends (fun x hx => (Point.lt_iff _ _).mpr (.inl ?_)) hi hj hs h1 h2
        exact hpx.trans_lt (beyond x hx)
      · intro i hi j hj hs h1 h2
        exact resolved.ends i hi j hj hs h1 (h2 ▸ hpx)
    · have hg := hx.resolve_left hpx
      have hcg : closeGroup false context d.s d.group = ([], d.s) := by rw [hg]; rfl
      rw [hcg, List.append_nil]
      exact ok.emitted

/-- Reported crossings are real. -/
theorem sweep_crossing {context : Context K} (hc : context.Exact) (stopX : K)
    {s f : State K} (h : s.Fresh) (c : Clock ε P s) (hcl : ¬ Clash s)
    (hf : (sweep false context stopX s).2 = .ok f) :
    ∀ em ∈ (sweep false context stopX s).1, em.relation = .cross → Crossing ε s :=
  fun em hem hx => (sweep_crossing_sharp hc stopX h c hcl hf em hem hx).crossing c

end

end Orient.eventsQueue
