import Verif.Lemmas.Sweep.Crossing
import Verif.Lemmas.Angle
import Verif.Spec.Ways

/-! When the linear queue reports crossings. -/

set_option linter.unusedSectionVars false

namespace Orient

variable {K : Type} [Field K] [LinearOrder K] [IsStrictOrderedRing K]

theorem sharesPiece_of_nontrivial {u v : Segment K} (h : (u.pts ∩ v.pts).Nontrivial) :
    SharesPiece u.pts v.pts := by
  obtain ⟨x, ⟨h1, h2⟩, y, ⟨h3, h4⟩, hne⟩ := h
  exact ⟨⟨x, y⟩, hne, Segment.pts_subset h1 h3, Segment.pts_subset h2 h4⟩

theorem SharesPiece.nontrivial {S T : Set (Point K)} (h : SharesPiece S T) : (S ∩ T).Nontrivial := by
  obtain ⟨u, hu, h1, h2⟩ := h
  exact ⟨u.start, ⟨h1 u.start_mem, h2 u.start_mem⟩, u.finish, ⟨h1 u.finish_mem, h2 u.finish_mem⟩, hu⟩

theorem SharesPiece.mono {S T S' T' : Set (Point K)} (h : SharesPiece S T) (hS : S ⊆ S')
    (hT : T ⊆ T') : SharesPiece S' T' := by
  obtain ⟨u, hu, h1, h2⟩ := h
  exact ⟨u, hu, h1.trans hS, h2.trans hT⟩

/-- The ends of a segment are on opposite sides of an inner point. -/
theorem Segment.Inner.opposite {s : Segment K} {p : Point K} (h : s.Inner p) :
    s.start ≠ p ∧ s.finish ≠ p ∧ ∃ k, 0 < k ∧ s.finish = lerp p s.start (-k) := by
  obtain ⟨⟨t, t0, t1, rfl⟩, hn⟩ := h
  have h0 : t ≠ 0 := fun e => hn (.inl (by rw [e, lerp_zero]))
  have h1 : t ≠ 1 := fun e => hn (.inr (by rw [e, lerp_one]))
  have t0 := lt_of_le_of_ne t0 h0.symm
  have t1 := lt_of_le_of_ne t1 h1
  refine ⟨fun e => hn (.inl e.symm), fun e => hn (.inr e.symm), (1 - t) / t, div_pos (by linarith) t0, ?_⟩
  refine Point.ext ?_ ?_ <;> simp only [lerp] <;> field_simp <;> ring

/-- Segments which are not on one line cross at a common inner point. -/
theorem crossesAt_of_inner {u v : Segment K} {p : Point K} (hu : u.Inner p) (hv : v.Inner p)
    (hn : ¬ SharesPiece u.pts v.pts) : CrossesAt u.pts v.pts p := by
  obtain ⟨a1, b1, k, hk, ek⟩ := hu.opposite
  obtain ⟨c1, d1, m, hm, em⟩ := hv.opposite
  have sub : ∀ {s : Segment K} {x : Point K}, s.Inner p → x ∈ s.pts → (⟨p, x⟩ : Segment K).pts ⊆ s.pts :=
    fun h hx => Segment.pts_subset h.1 hx
  have no : ∀ x ∈ u.pts, ∀ y ∈ v.pts, x ≠ p → ¬ SameRay p x y := fun x hx y hy hne h =>
    hn ((sharesPiece_of_nontrivial (h.nontrivial hne)).mono (sub hu hx) (sub hv hy))
  have hne : cross p u.start v.start ≠ 0 := by
    intro h0
    obtain ⟨j, hj, ej⟩ := opposite_of_cross a1 c1 h0 (no _ u.start_mem _ v.start_mem a1)
    exact no _ u.finish_mem _ v.start_mem b1 (by rw [ek, ej]; exact sameRay_of_opposite hk hj)
  have z : cross p u.start u.finish = 0 := by rw [ek, cross_lerp_right, cross_same, mul_zero]
  have z' : cross p u.finish u.start = 0 := by rw [cross_swap, z, neg_zero]
  have key : ∀ x, (0 < cross p u.start x → InAngle p u.start u.finish x) ∧
      (cross p u.start x < 0 → InAngle p u.finish u.start x) := by
    intro x
    unfold InAngle
    rw [z, z', if_neg (lt_irrefl _), if_neg (lt_irrefl _), ek, cross_lerp_right, cross_lerp_left,
      cross_swap p u.start x]
    exact ⟨fun h => ⟨h, by nlinarith⟩, fun h => ⟨by nlinarith, by linarith⟩⟩
  have ef : cross p u.start v.finish = -m * cross p u.start v.start := by rw [em, cross_lerp_right]
  rcases lt_or_gt_of_ne hne with h | h
  · exact ⟨u.start, u.finish, v.finish, v.start, sub hu u.start_mem, sub hu u.finish_mem,
      sub hv v.finish_mem, sub hv v.start_mem, (key _).1 (by rw [ef]; nlinarith), (key _).2 h⟩
  · exact ⟨u.start, u.finish, v.start, v.finish, sub hu u.start_mem, sub hu u.finish_mem,
      sub hv v.start_mem, sub hv v.finish_mem, (key _).1 h, (key _).2 (by rw [ef]; nlinarith)⟩

theorem CrossesAt.mono {S T S' T' : Set (Point K)} {p : Point K} (h : CrossesAt S T p) (hS : S ⊆ S')
    (hT : T ⊆ T') : CrossesAt S' T' p := by
  obtain ⟨a, b, u, v, h1, h2, h3, h4, h5, h6⟩ := h
  exact ⟨a, b, u, v, h1.trans hS, h2.trans hS, h3.trans hT, h4.trans hT, h5, h6⟩

namespace eventsQueue

open Segment State

theorem pts_of_event {s : State K} (hw : s.WF) {e : Ev} (hv : s.Valid e) :
    (⟨s.evStart e, s.evEnd e⟩ : Segment K).pts = (s.seg (s.leftOf e)).pts := by
  cases e with
  | left i => rfl
  | right r =>
    rw [← Segment.pts_reverse]
    change (⟨(s.lefts (s.rights r).left).start, (s.rights r).start⟩ : Segment K).pts = _
    rw [← hw.leftEnd_left hv]
    rfl

theorem evEnd_ne {s : State K} (hw : s.WF) {e : Ev} (hv : s.Valid e) : s.evEnd e ≠ s.evStart e := by
  cases e with
  | left i => exact (hw.lt i hv).ne'
  | right r =>
    have := hw.lt _ (hw.rightLeft r hv).1
    rw [hw.leftEnd_left hv] at this
    exact this.ne

theorem leftOf_inj {s : State K} (hw : s.WF) {e e' : Ev} (hv : s.Valid e) (hv' : s.Valid e')
    (hs : s.evStart e = s.evStart e') (h : s.leftOf e = s.leftOf e') : e = e' := by
  cases e with
  | left i =>
    cases e' with
    | left j => exact congrArg Ev.left h
    | right r =>
      exfalso
      have h : i = (s.rights r).left := h
      have := hw.lt _ (hw.rightLeft r hv').1
      rw [hw.leftEnd_left hv', ← h] at this
      exact this.ne hs
  | right r =>
    cases e' with
    | left j =>
      exfalso
      have h : (s.rights r).left = j := h
      have := hw.lt _ (hw.rightLeft r hv).1
      rw [hw.leftEnd_left hv, h] at this
      exact this.ne hs.symm
    | right r' =>
      have h : (s.rights r).left = (s.rights r').left := h
      have h1 := (hw.rightLeft r hv).2
      have h2 := (hw.rightLeft r' hv').2
      rw [h] at h1
      exact congrArg Ev.right (h1.symm.trans h2)

section

variable {ε : K} {P : Finset (Point K)} {s₀ s : State K} {o : Nat → Nat} {p : Point K}
  {group : List Ev} {S T : Set (Point K)}

/-- The pieces of an operand as a list. -/
theorem exists_pieces (s : State K) (b : Bool) : ∃ l : List (Segment K), s.operand b = segsPts l ∧
    ∀ u ∈ l, ∃ i < s.nextLeft, (s.lefts i).fromTest = b ∧ u = s.seg i := by
  refine ⟨((List.range s.nextLeft).filter fun i => (s.lefts i).fromTest = b).map s.seg, ?_, ?_⟩
  · ext x
    constructor
    · rintro ⟨i, hi, hb, hx⟩
      exact ⟨_, List.mem_map.mpr ⟨i, List.mem_filter.mpr ⟨List.mem_range.mpr hi, by simpa using hb⟩, rfl⟩,
        hx⟩
    · rintro ⟨u, hu, hx⟩
      obtain ⟨i, hi, rfl⟩ := List.mem_map.mp hu
      obtain ⟨h1, h2⟩ := List.mem_filter.mp hi
      exact ⟨i, List.mem_range.mp h1, by simpa using h2, hx⟩
  · rintro u hu
    obtain ⟨i, hi, rfl⟩ := List.mem_map.mp hu
    obtain ⟨h1, h2⟩ := List.mem_filter.mp hi
    exact ⟨i, List.mem_range.mp h1, by simpa using h2, rfl⟩

/-- A group of events is a star of directions if the operands share no piece. -/
theorem star_of_group (hw : s.WF) (hg : GroupOK s p group) (hn : group.Nodup) (hcl : ¬ Clash s)
    (hns : ¬ SharesPiece (s.operand true) (s.operand false)) : Star s p group := by
  refine ⟨hn, fun e he => (hg e he).2, fun e he => ?_, fun e he e' he' hne hr => ?_⟩
  · have := evEnd_ne hw (hg e he).1
    rwa [(hg e he).2] at this
  · obtain ⟨v1, s1⟩ := hg e he
    obtain ⟨v2, s2⟩ := hg e' he'
    have hnt := hr.nontrivial (by have := evEnd_ne hw v1; rwa [s1] at this)
    have e1 := pts_of_event hw v1
    have e2 := pts_of_event hw v2
    rw [s1] at e1
    rw [s2] at e2
    rw [e1, e2] at hnt
    have l1 := hw.leftOf_lt v1
    have l2 := hw.leftOf_lt v2
    have hl : s.leftOf e ≠ s.leftOf e' := fun h => hne (leftOf_inj hw v1 v2 (s1.trans s2.symm) h)
    by_cases hf : (s.lefts (s.leftOf e')).fromTest = (s.lefts (s.leftOf e)).fromTest
    · exact hcl ⟨_, _, l1, l2, hl, hf, hnt⟩
    · have sub1 := seg_subset_operand s l1
      have sub2 := seg_subset_operand s l2
      cases hb : (s.lefts (s.leftOf e)).fromTest with
      | true =>
        have hb' : (s.lefts (s.leftOf e')).fromTest = false := by rw [hb] at hf; simpa using hf
        rw [hb] at sub1
        rw [hb'] at sub2
        exact hns ((sharesPiece_of_nontrivial hnt).mono sub1 sub2)
      | false =>
        have hb' : (s.lefts (s.leftOf e')).fromTest = true := by rw [hb] at hf; simpa using hf
        rw [hb] at sub1
        rw [hb'] at sub2
        rw [Set.inter_comm] at hnt
        exact hns ((sharesPiece_of_nontrivial hnt).mono sub2 sub1)

theorem Turned.crosses (hw : s.WF) (hg : GroupOK s p group) (h : Turned s p group) :
    CrossesAt (s.operand true) (s.operand false) p := by
  obtain ⟨g, hg1, g', hg2, e, he1, e', he2, f1, f2, f3, f4, i1, i2⟩ := h
  have sub : ∀ x ∈ group, ∀ b, s.evFromTest x = b → (⟨p, s.evEnd x⟩ : Segment K).pts ⊆ s.operand b := by
    rintro x hx _ rfl
    obtain ⟨v, e⟩ := hg x hx
    have := pts_of_event hw v
    rw [e] at this
    rw [this]
    exact seg_subset_operand s (hw.leftOf_lt v)
  exact CrossesAt.symm ⟨_, _, _, _, sub g hg1 _ f1, sub g' hg2 _ f2, sub e he1 _ f3, sub e' he2 _ f4, i1, i2⟩

theorem CrossFrom.crosses (hF : s₀.Fresh) (c₀ : Clock ε P s₀) (hr : Refines s₀ s o) (hw : s.WF)
    (hg : GroupOK s p group) (hns : ¬ SharesPiece (s₀.operand true) (s₀.operand false)) {k : Nat}
    (hk : CrossFrom s group k) : CrossesAt (s₀.operand true) (s₀.operand false) p := by
  obtain ⟨e, he, rfl, x, hx, hne, h1, h2⟩ := hk
  obtain ⟨ve, pe⟩ := hg e he
  obtain ⟨vx, px⟩ := hg x hx
  have ie := inner_of_event hF c₀ hr hw ve h1
  have ix := inner_of_event hF c₀ hr hw vx h2
  rw [pe] at ie
  rw [px] at ix
  have le := hw.leftOf_lt ve
  have lx := hw.leftOf_lt vx
  have sub1 := seg_subset_operand s₀ (hr.lt _ le)
  have sub2 := seg_subset_operand s₀ (hr.lt _ lx)
  have hne : (s.lefts (s.leftOf x)).fromTest ≠ (s.lefts (s.leftOf e)).fromTest := hne
  rw [hr.fromTest _ le, hr.fromTest _ lx] at hne
  cases hb : (s₀.lefts (o (s.leftOf e))).fromTest with
  | true =>
    rw [hb] at hne sub1
    have hb' : (s₀.lefts (o (s.leftOf x))).fromTest = false := by simpa using hne
    rw [hb'] at sub2
    exact (crossesAt_of_inner ie ix fun h => hns (h.mono sub1 sub2)).mono sub1 sub2
  | false =>
    rw [hb] at hne sub1
    have hb' : (s₀.lefts (o (s.leftOf x))).fromTest = true := by simpa using hne
    rw [hb'] at sub2
    exact (crossesAt_of_inner ix ie fun h => hns (h.mono sub2 sub1)).mono sub2 sub1

/-- A point where pieces of both operands meet is an end of each of them. -/
theorem endpoint_of_meeting (c : Clock ε P s)
    (past : ∀ i < s.nextLeft, ∀ j < s.nextLeft, ¬ Same ε (s.seg i) (s.seg j) → p ∈ (s.seg i).pts →
      p ∈ (s.seg j).pts → (s.seg i).IsEndpoint p ∧ (s.seg j).IsEndpoint p)
    {i j : Nat} (hi : i < s.nextLeft) (hj : j < s.nextLeft) (mi : p ∈ (s.seg i).pts)
    (mj : p ∈ (s.seg j).pts) (hn : ¬ SharesPiece (s.seg i).pts (s.seg j).pts) :
    (s.seg i).IsEndpoint p := by
  by_cases hs : Same ε (s.seg i) (s.seg j)
  · by_contra hend
    have ti := c.times hi
    have tj := c.times hj
    obtain ⟨a1, a2, a3⟩ := (mem_pts_iff_height ti p).mp mi
    obtain ⟨b1, b2, b3⟩ := (mem_pts_iff_height tj p).mp mj
    have a1 : (s.seg i).start.time ε < p.time ε := lt_of_le_of_ne a1 fun e => hend (.inl
      (Point.ext_time e.symm (by rw [a3, ← e, height_start])))
    have a2 : p.time ε < (s.seg i).finish.time ε := lt_of_le_of_ne a2 fun e => hend (.inr
      (Point.ext_time e (by rw [a3, e, height_finish ti])))
    have key : ∀ t, (s.seg i).pointAt ε t = (s.seg j).pointAt ε t := fun t =>
      Point.ext_time ((pointAt_time _ _).trans (pointAt_time _ _).symm) (hs.at t)
    have common : ∀ t, (s.seg i).start.time ε ≤ t → t ≤ (s.seg i).finish.time ε →
        (s.seg j).start.time ε ≤ t → t ≤ (s.seg j).finish.time ε → t ≠ p.time ε → False := by
      intro t k1 k2 k3 k4 hne
      refine hn (sharesPiece_of_nontrivial ⟨p, ⟨mi, mj⟩, (s.seg i).pointAt ε t,
        ⟨pointAt_mem ti k1 k2, ?_⟩, fun e => hne ?_⟩)
      · rw [key]; exact pointAt_mem tj k3 k4
      · rw [e, pointAt_time]
    rcases b2.lt_or_eq with hlt | heq
    · obtain ⟨t, t1, t2⟩ := exists_between (lt_min a2 hlt)
      exact common t (a1.trans t1).le (t2.le.trans (min_le_left _ _)) (b1.trans t1.le)
        (t2.le.trans (min_le_right _ _)) t1.ne'
    · have : (s.seg j).start.time ε < p.time ε := by rw [heq]; exact tj
      obtain ⟨t, t1, t2⟩ := exists_between (max_lt a1 this)
      exact common t ((le_max_left _ _).trans t1.le) (t2.trans a2).le ((le_max_right _ _).trans t1.le)
        (t2.le.trans b2) t2.ne
  · exact (past i hi j hj hs mi mj).1

/-- Every direction of an operand at a point of the other one is the direction of an event. -/
theorem way_event (c : Clock ε P s)
    (past : ∀ i < s.nextLeft, ∀ j < s.nextLeft, ¬ Same ε (s.seg i) (s.seg j) → p ∈ (s.seg i).pts →
      p ∈ (s.seg j).pts → (s.seg i).IsEndpoint p ∧ (s.seg j).IsEndpoint p)
    (hns : ¬ SharesPiece (s.operand true) (s.operand false)) {b : Bool} {a : Point K} (ha : a ≠ p)
    (hsub : (⟨p, a⟩ : Segment K).pts ⊆ s.operand b) (hp : p ∈ s.operand (!b)) :
    ∃ e, s.Valid e ∧ s.evStart e = p ∧ s.evFromTest e = b ∧ SameRay p a (s.evEnd e) := by
  have hw := c.wf
  obtain ⟨l, hl, hl'⟩ := exists_pieces s b
  rw [hl] at hsub
  obtain ⟨u, hu, x, hxp, hx, hpu, hxu⟩ := exists_germ_of_subset ha.symm hsub
  obtain ⟨i, hi, bi, rfl⟩ := hl' u hu
  obtain ⟨j, hj, bj, mj⟩ := hp
  have sub1 := seg_subset_operand s hi
  have sub2 := seg_subset_operand s hj
  rw [bi] at sub1
  rw [bj] at sub2
  have hno : ¬ SharesPiece (s.seg i).pts (s.seg j).pts := by
    rintro ⟨w, hw, h1, h2⟩
    cases b
    · exact hns ⟨w, hw, h2.trans sub2, h1.trans sub1⟩
    · exact hns ⟨w, hw, h1.trans sub1, h2.trans sub2⟩
  have hend := endpoint_of_meeting c past hi hj hpu mj hno
  have ray := sameRay_of_mem hxp hx
  rcases hend with e | e
  · have e : p = (s.lefts i).start := e
    refine ⟨.left i, hi, e.symm, bi, ray.trans (SameRay.symm ?_)⟩
    refine sameRay_of_mem hxp ?_
    have := hxu
    rw [e]
    exact this
  · have e : p = s.leftEnd i := e
    obtain ⟨h1, h2⟩ := hw.leftRight i hi
    refine ⟨.right (s.lefts i).right, h1, e.symm, ?_, ray.trans (SameRay.symm ?_)⟩
    · simp only [State.evFromTest, State.leftOf, h2]
      exact bi
    · refine sameRay_of_mem hxp ?_
      have := hxu
      rw [← Segment.pts_reverse] at this
      change x ∈ (⟨p, (s.lefts (s.rights (s.lefts i).right).left).start⟩ : Segment K).pts
      rw [h2, e]
      exact this

/-- The directions of the operands at a point with at most two ways in the other operand. -/
theorem turned_of_crosses (c : Clock ε P s) (hg : GroupOK s p group)
    (full : ∀ x, s.Valid x → s.evStart x = p → x ∈ group)
    (past : ∀ i < s.nextLeft, ∀ j < s.nextLeft, ¬ Same ε (s.seg i) (s.seg j) → p ∈ (s.seg i).pts →
      p ∈ (s.seg j).pts → (s.seg i).IsEndpoint p ∧ (s.seg j).IsEndpoint p)
    (hns : ¬ SharesPiece (s.operand true) (s.operand false))
    (h : CrossesAt (s.operand true) (s.operand false) p) : Turned s p group := by
  obtain ⟨a, b, u, v, ha, hb, hu, hv, h1, h2⟩ := h.symm
  have ne : ∀ {x y z : Point K}, InAngle p x y z → x ≠ p ∧ y ≠ p ∧ z ≠ p := by
    intro x y z hi
    unfold InAngle at hi
    refine ⟨?_, ?_, ?_⟩
    · rintro rfl
      rw [cross_self_left, cross_self_left, if_neg (lt_irrefl _)] at hi
      exact lt_irrefl _ hi.1
    · rintro rfl
      rw [cross_self_right, cross_self_right, if_neg (lt_irrefl _)] at hi
      exact lt_irrefl _ hi.2
    · rintro rfl
      rw [cross_self_right, cross_self_left] at hi
      split_ifs at hi <;> simp at hi
  obtain ⟨na, nb, nu⟩ := ne h1
  obtain ⟨-, -, nv⟩ := ne h2
  have pT : p ∈ s.operand false := ha (Segment.start_mem _)
  have pS : p ∈ s.operand true := hu (Segment.start_mem _)
  obtain ⟨g, q1, q2, q3, q4⟩ := way_event c past hns (b := false) na ha pS
  obtain ⟨g', r1, r2, r3, r4⟩ := way_event c past hns (b := false) nb hb pS
  obtain ⟨e, s1, s2, s3, s4⟩ := way_event c past hns (b := true) nu hu pT
  obtain ⟨e', t1, t2, t3, t4⟩ := way_event c past hns (b := true) nv hv pT
  exact ⟨g, full g q1 q2, g', full g' r1 r2, e, full e s1 s2, e', full e' t1 t2, q3, r3, s3, t3,
    h1.congr q4 r4 s4, h2.congr r4 q4 t4⟩

theorem foldl_raise_big (s : State K) (l : List Ev) {e : Ev} (he : e ∈ l) :
    Big ((l.foldl (fun s event => s.raiseRelation (s.leftOf event) .cross) s).lefts
      (s.leftOf e)).relation := by
  induction l generalizing s with
  | nil => cases he
  | cons x l ih =>
    simp only [List.foldl_cons]
    rcases List.mem_cons.mp he with rfl | he
    · refine (foldl_raise_up _ l .cross).big _ ?_
      simp only [raiseRelation, setLeft, if_pos]
      exact SegmentsRelation.big_max _ _ (.inr (.inl rfl))
    · have := ih (s.raiseRelation (s.leftOf x) .cross) he
      rwa [(raiseRelation_up s (s.leftOf x) .cross).leftOf] at this

theorem foldl_raise_crossed {s : State K} {l : List Ev} {k : Nat}
    (h : ((l.foldl (fun s event => s.raiseRelation (s.leftOf event) .cross) s).lefts k).relation
      = .cross) : (s.lefts k).relation = .cross ∨ ∃ e ∈ l, s.leftOf e = k := by
  induction l generalizing s with
  | nil => exact .inl h
  | cons x l ih =>
    simp only [List.foldl_cons] at h
    rcases ih h with h | ⟨e, he, h⟩
    · rcases raiseRelation_cross h with h | ⟨rfl, -⟩
      · exact .inl h
      · exact .inr ⟨x, List.mem_cons_self .., rfl⟩
    · rw [(raiseRelation_up s (s.leftOf x) .cross).leftOf] at h
      exact .inr ⟨e, List.mem_cons_of_mem _ he, h⟩

/-- What is known of crossings. -/
structure TurnsOK (S T : Set (Point K)) (s : State K) (q : Point K → Prop) (ems : List (Emitted K)) :
    Prop where
  state : ∀ i < s.nextLeft, (s.lefts i).relation = .cross → ∃ p, CrossesAt S T p
  emitted : ∀ em ∈ ems, em.relation = .cross → ∃ p, CrossesAt S T p
  found : ∀ e, s.Valid e → q (s.evStart e) → CrossesAt S T (s.evStart e) →
    AtMostTwoWays T (s.evStart e) → ∃ em ∈ ems, Big em.relation

theorem TurnsOK.close {context : Context K} (hc : context.Exact) {ems : List (Emitted K)}
    (hS : s₀.operand true = S) (hT : s₀.operand false = T)
    (h : TurnsOK S T s (· < p) ems) (hF : s₀.Fresh) (c₀ : Clock ε P s₀) (c : Clock ε P s)
    (hr : Refines s₀ s o) (hg : GroupOK s p group) (hnd : group.Nodup)
    (full : ∀ x, s.Valid x → s.evStart x = p → x ∈ group) (hcl : ¬ Clash s)
    (past : ∀ i < s.nextLeft, ∀ j < s.nextLeft, ¬ Same ε (s.seg i) (s.seg j) → p ∈ (s.seg i).pts →
      p ∈ (s.seg j).pts → (s.seg i).IsEndpoint p ∧ (s.seg j).IsEndpoint p)
    (hns : ¬ SharesPiece S T) :
    TurnsOK S T (closeGroup true context s group).2 (· ≤ p)
      (ems ++ (closeGroup true context s group).1) := by
  have hw := c.wf
  have eS : s.operand true = S := (hr.operand true).trans hS
  have eT : s.operand false = T := (hr.operand false).trans hT
  have hns' : ¬ SharesPiece (s.operand true) (s.operand false) := by rw [eS, eT]; exact hns
  have star := star_of_group hw hg hnd hcl hns'
  have u := (closeGroup_up true context s group).1
  have crossing : ∀ {k}, CrossFrom s group k → CrossesAt S T p := by
    intro k hk
    have := hk.crosses hF c₀ hr hw hg (by rw [hS, hT]; exact hns)
    rwa [hS, hT] at this
  have u1 := detectCrossingAngles_up context s group
  obtain ⟨b1, b2⟩ := completeEventsRelations_cross (detectCrossingAngles context s group) group
  have before : ∀ k < s.nextLeft, ((detectCrossingAngles context s group).lefts k).relation = .cross →
      ∃ p, CrossesAt S T p := by
    intro k hk hx
    rcases detectCrossingAngles_cases hc star with e | ⟨ht, e⟩
    · rw [e] at hx; exact h.state k hk hx
    · have := ht.crosses hw hg
      rw [eS, eT] at this
      exact ⟨p, this⟩
  refine ⟨fun i hi hx => ?_, fun em hem hx => ?_, fun e hv hq hx h2 => ?_⟩
  · rcases b1 i hx with h1 | h1
    · exact before i (u.shape.nextLeft ▸ hi) h1
    · exact ⟨p, crossing (h1.up u1)⟩
  · rcases List.mem_append.mp hem with hem | hem
    · exact h.emitted em hem hx
    · rcases b2 _ hem hx with h1 | h1
      · obtain ⟨e, he, t, -, -, rfl, -⟩ := (closeGroup_up true context s group).2.1 em hem
        exact before _ (hw.leftOf_lt (hg e he).1) h1
      · exact ⟨p, crossing (h1.up u1)⟩
  · have hv1 : s.Valid e := by
      cases e with
      | left i => exact (show i < s.nextLeft from u.shape.nextLeft ▸ hv)
      | right i => exact (show i < s.nextRight from u.shape.nextRight ▸ hv)
    rw [SameShape.evStart u.shape] at hq hx h2
    rcases hq.lt_or_eq with hlt | heq
    · obtain ⟨em, hem, hb⟩ := h.found e hv1 hlt hx h2
      exact ⟨em, List.mem_append_left _ hem, hb⟩
    · rw [heq] at hx h2
      have ht := turned_of_crosses c hg full past hns' (by rw [eS, eT]; exact hx)
      have ed := detectCrossingAngles_two hc star ht fun x hx y hy z hz fx fy fz => by
        have sub : ∀ x ∈ group, s.evFromTest x = false →
            (⟨p, s.evEnd x⟩ : Segment K).pts ⊆ T := by
          rintro x hx fx
          obtain ⟨v, e⟩ := hg x hx
          have := pts_of_event hw v
          rw [e] at this
          rw [this, ← eT]
          have := seg_subset_operand s (hw.leftOf_lt v)
          rwa [show (s.lefts (s.leftOf x)).fromTest = false from fx] at this
        have same : ∀ x ∈ group, ∀ y ∈ group,
            SharesPiece (⟨p, s.evEnd x⟩ : Segment K).pts (⟨p, s.evEnd y⟩ : Segment K).pts → x = y := by
          intro x hx y hy hs
          by_contra hne
          exact star.rays x hx y hy hne (sameRay_of_nontrivial hs.nontrivial)
        rcases h2 _ _ _ (star.ends x hx) (star.ends y hy) (star.ends z hz) (sub x hx fx) (sub y hy fy)
          (sub z hz fz) with h | h | h
        · exact .inl (same x hx y hy h)
        · exact .inr (.inl (same x hx z hz h))
        · exact .inr (.inr (same y hy z hz h))
      have he := full e hv1 heq
      obtain ⟨em, hem, t, u2, -, rfl, -⟩ :=
        (completeEventsRelations_up (detectCrossingAngles context s group) group).2.2 e he
      refine ⟨_, List.mem_append_right _ hem, u2.big _ ?_⟩
      rw [u1.leftOf, ed]
      exact foldl_raise_big s group he

/-- What is known of crossings when an event is handled. -/
structure TurnsAt (S T : Set (Point K)) (c : Config K) (ems : List (Emitted K)) (p : Point K) : Prop where
  ok : TurnsOK S T c.s (· < p) ems
  nodup : c.group.Nodup
  notMem : ∀ x ∈ c.group, x ∉ c.s.queue

theorem TurnsAt.step {context : Context K} (hc : context.Exact) {stopX : K} {c d : Config K}
    (hi : Inv c) (hF : s₀.Fresh) (c₀ : Clock ε P s₀) (hr : Runs s₀ c.s) (hS : s₀.operand true = S)
    (hT : s₀.operand false = T) (hns : ¬ SharesPiece S T) {ems ems' : List (Emitted K)} {p p' : Point K}
    (tr : Track ε P c ems p) (sd : TurnsAt S T c ems p)
    (h : sweepStep true context stopX c = some (ems', .ok d)) (hp' : d.start = some p') :
    TurnsAt S T d (ems ++ ems') p' := by
  obtain ⟨e, t, it, hh, hel, -⟩ := sweepStep_ok hc hi h
  obtain ⟨g1, g2⟩ := it.groupOK hi
  have hpk := it.peek
  have hmem := peek?_mem hpk
  have hnot := it.notMem hi
  have hb := tr.moving.base
  have hw := hi.wf
  obtain ⟨q, hq⟩ : ∃ q, c.s.evStart e = q := ⟨_, rfl⟩
  have shape := (it.rels hi).shape
  have ct : Clock ε P t := (hb.clock.pop e).elems (it.rels hi).elems
  rw [hq] at g1 g2
  rw [g1] at hp'
  obtain rfl := Option.some.inj hp'
  have finish : Moving ε P c.s c.line q → TurnsOK S T t (· < q) (ems ++ ems') → d.group.Nodup →
      (∀ x ∈ d.group, t.Valid x ∧ x ∉ t.queue) → TurnsAt S T d (ems ++ ems') q := by
    intro hm h hn hg
    obtain ⟨m, cuts⟩ := hm.handle hc hpk hq shape hh
    refine ⟨⟨fun i hi hx => ?_, h.emitted, fun x hv hx h1 h2 => ?_⟩, hn,
      fun x hx => Elems.not_mem hel (hg x hx).1 (hg x hx).2⟩
    · obtain ⟨j, hj, e⟩ := Cuts.relation_from cuts ct.wf hi
      exact h.state j hj (e.symm.trans hx)
    · have hv' := (hel.queue.2 x hv).resolve_right fun hm =>
        absurd (m.base.queue x hm) (not_le.mpr hx)
      rw [(hel.evStart ct.wf hv').1] at hx h1 h2
      exact h.found x hv' hx h1 h2
  have evalid : t.Valid e := it.valid hi
  rcases it.closed with ⟨hs, rfl, rfl, -, hg⟩ | ⟨hs, rfl, rfl, -, hg⟩
  · rw [hq, tr.start] at hs
    obtain rfl := Option.some.inj hs
    rw [List.append_nil] at finish ⊢
    have hgr := hi.group _ tr.start
    refine finish tr.moving ⟨sd.ok.state, sd.ok.emitted, sd.ok.found⟩ ?_ fun x hx => ?_
    · rw [hg]
      refine List.nodup_append.mpr ⟨sd.nodup, List.nodup_singleton e, fun x hx y hy => ?_⟩
      rw [List.mem_singleton.mp hy]
      rintro rfl
      exact sd.notMem x hx hmem
    · rw [hg, List.mem_append, List.mem_singleton] at hx
      rcases hx with hx | rfl
      · exact ⟨(hgr x hx).1, fun hm => sd.notMem x hx (List.mem_of_mem_erase hm)⟩
      · exact ⟨evalid, hnot⟩
  · rw [hq, tr.start] at hs
    have hlt : p < q := lt_of_le_of_ne (hq ▸ hb.queue e hmem) fun e => hs (congrArg some e.symm)
    have hall : ∀ x ∈ c.s.queue, q ≤ c.s.evStart x := hq ▸ peek?_le hpk
    obtain ⟨m, -⟩ := tr.moving.advance hlt hall ⟨e, hmem, hq⟩
    have hgr : GroupOK (popped c.s e) p c.group := hi.group p tr.start
    have hrp : Runs s₀ (popped c.s e) := Runs.pop e hr hmem
    obtain ⟨o, ho⟩ := hrp.refines c₀.wf
    have sd' : TurnsOK S T (popped c.s e) (· < p) ems := ⟨sd.ok.state, sd.ok.emitted, sd.ok.found⟩
    have cl := sd'.close hc hS hT hF c₀ (hb.clock.pop e) ho hgr sd.nodup
      (fun x hv hx => tr.full x hv (fun hm => absurd (hall x hm) (not_le.mpr (by
        rw [show c.s.evStart x = p from hx]; exact hlt))) hx) hb.clash
      (fun i hi j hj h1 h2 h3 => m.base.past i hi j hj h1 p h2 h3 hlt) hns
    refine finish m ⟨cl.state, cl.emitted, fun x hv hx => cl.found x hv ?_⟩ ?_ fun x hx => ?_
    · rw [SameShape.evStart shape] at hx ⊢
      have hv' : c.s.Valid x := by
        cases x with
        | left i => exact (show i < c.s.nextLeft from shape.nextLeft ▸ hv)
        | right i => exact (show i < c.s.nextRight from shape.nextRight ▸ hv)
      exact hb.popped x hv' fun hm => absurd (hall x hm) (not_le.mpr hx)
    · rw [hg]; exact List.nodup_singleton e
    · rw [hg, List.mem_singleton] at hx
      subst hx
      exact ⟨evalid, hnot⟩

theorem Reaches.turnsAt {context : Context K} (hc : context.Exact) {stopX : K} {s : State K}
    (h : s.Fresh) (c : Clock ε P s) (hcl : ¬ Clash s) (hS : s.operand true = S)
    (hT : s.operand false = T) (hns : ¬ SharesPiece S T) {e : Ev} (he : peek? context s = some e)
    {d : Config K} {ems : List (Emitted K)}
    (hr : Reaches true context stopX (initial context s) ems d) {p : Point K} (hp : d.start = some p) :
    TurnsAt S T d ems p := by
  induction hr generalizing p with
  | refl =>
    refine ⟨⟨fun i hi hx => ?_, by simp, fun x hv hx => ?_⟩, List.nodup_nil, by simp [initial]⟩
    · rw [show ((initial context s).s.lefts i).relation = .disjoint from h.relation i hi] at hx
      cases hx
    · have := (track_initial h c hcl he).start
      rw [hp] at this
      obtain rfl := Option.some.inj this
      refine absurd (peek?_le he x ?_) (not_le.mpr hx)
      cases x with
      | left i => exact h.lefts i hv
      | right i => exact h.rights i (h.nextRight ▸ hv)
  | tail h1 h2 ih =>
    obtain ⟨q, tr, -⟩ := h1.track hc h c hcl he
    obtain ⟨hi, hruns⟩ := h1.inv hc (initial_inv context h.wf)
    exact (ih tr.start).step hc hi h c hruns hS hT hns tr h2 hp

/-- The crossings the linear queue reports. -/
theorem sweep_turns {context : Context K} (hc : context.Exact) (stopX : K)
    {s f : State K} (h : s.Fresh) (hcl : ¬ Clash s)
    (hns : ¬ SharesPiece (s.operand true) (s.operand false))
    (hf : (sweep true context stopX s).2 = .ok f) :
    (∀ em ∈ (sweep true context stopX s).1, em.relation = .cross →
      ∃ p, CrossesAt (s.operand true) (s.operand false) p) ∧
    ∀ p, CrossesAt (s.operand true) (s.operand false) p → AtMostTwoWays (s.operand false) p →
      p.x ≤ stopX → ∃ em ∈ (sweep true context stopX s).1, Big em.relation := by
  obtain ⟨P, hP, -⟩ := exists_breakPoints h.wf
  obtain ⟨ε, hε⟩ := exists_inclination P
  have c : Clock ε P s := ⟨h.wf, hP, hε⟩
  rcases sweep_ends true hc stopX h.wf h.length with ⟨ems, d, h1, h2, h3, h4⟩ | ⟨h1, -⟩
  swap
  · rw [h1] at hf; cases hf
  obtain ⟨hd, hruns⟩ := h1.inv hc (initial_inv context h.wf)
  have hruns : Runs s d.s := hruns
  have beyond := sweepStep_beyond h2
  rw [h3]
  cases he : peek? context s with
  | none =>
    obtain ⟨rfl, rfl⟩ := h1.stays (by unfold sweepStep; simp [initial, he])
    have e1 : (closeGroup true context (initial context s).s (initial context s).group) = ([], s) := rfl
    rw [e1]
    refine ⟨by simp, ?_⟩
    rintro p ⟨a, b, u, v, h5, -⟩
    obtain ⟨i, hi, -⟩ := h5 (Segment.start_mem _)
    have := h.lefts i hi
    rw [peek?_none he] at this
    cases this
  | some e₀ =>
    obtain ⟨p, tr, hx⟩ := h1.track hc h c hcl he
    have at' := h1.turnsAt hc h c hcl rfl rfl hns he tr.start
    have hb := tr.moving.base
    have cd := hb.clock
    have hgr : GroupOK d.s p d.group := hd.group p tr.start
    obtain ⟨o, ho⟩ := hruns.refines c.wf
    have resolved := tr.resolved context beyond
    have handled : ∀ x, d.s.Valid x → (d.s.evStart x).x ≤ stopX → x ∉ d.s.queue := fun x _ hle hm =>
      absurd (beyond x hm) (not_lt.mpr hle)
    have fin : TurnsOK (s.operand true) (s.operand false) (closeGroup true context d.s d.group).2
        (fun x => x.x ≤ stopX) (ems ++ (closeGroup true context d.s d.group).1) := by
      have u := (closeGroup_up true context d.s d.group).1
      have valid : ∀ x, (closeGroup true context d.s d.group).2.Valid x → d.s.Valid x := by
        intro x hv
        cases x with
        | left i => exact (show i < d.s.nextLeft from u.shape.nextLeft ▸ hv)
        | right i => exact (show i < d.s.nextRight from u.shape.nextRight ▸ hv)
      by_cases hpx : p.x ≤ stopX
      · have cl := at'.ok.close hc rfl rfl h c cd ho hgr at'.nodup
          (fun x hv hx => tr.full x hv (handled x hv (by rw [hx]; exact hpx)) hx) hb.clash
          (fun i hi j hj h1 h2 h3 => resolved.past i hi j hj h1 p h2 h3 hpx) hns
        refine ⟨cl.state, cl.emitted, fun x hv hx => cl.found x hv ?_⟩
        rw [SameShape.evStart u.shape] at hx ⊢
        exact hb.popped x (valid x hv) (handled x (valid x hv) hx)
      · have hg := hx.resolve_left hpx
        have hcg : closeGroup true context d.s d.group = ([], d.s) := by rw [hg]; rfl
        rw [hcg, List.append_nil]
        refine ⟨at'.ok.state, at'.ok.emitted, fun x hv hx => at'.ok.found x hv ?_⟩
        have := hb.popped x hv (handled x hv hx)
        refine lt_of_le_of_ne this fun e => hpx ?_
        rw [← e]; exact hx
    refine ⟨fin.emitted, fun y hy h2 hle => ?_⟩
    have u := (closeGroup_up true context d.s d.group).1
    obtain ⟨a, b, x, v, h5, -, -, h6, h7, -⟩ := id hy.symm
    have key : ∃ e, d.s.Valid e ∧ d.s.evStart e = y := by
      have pT : y ∈ d.s.operand false := by rw [ho.operand]; exact h5 (Segment.start_mem _)
      have pS : y ∈ d.s.operand true := by rw [ho.operand]; exact h6 (Segment.start_mem _)
      obtain ⟨i, hi, bi, mi⟩ := pT
      obtain ⟨j, hj, bj, mj⟩ := pS
      have hno : ¬ SharesPiece (d.s.seg i).pts (d.s.seg j).pts := by
        rintro ⟨w, hw, k1, k2⟩
        refine hns ⟨w, hw, ?_, ?_⟩
        · rw [← ho.operand, ← bj]; exact k2.trans (seg_subset_operand d.s hj)
        · rw [← ho.operand, ← bi]; exact k1.trans (seg_subset_operand d.s hi)
      rcases endpoint_of_meeting cd (fun i hi j hj h1 h2 h3 => resolved.past i hi j hj h1 y h2 h3 hle)
        hi hj mi mj hno with e | e
      · exact ⟨.left i, hi, e.symm⟩
      · exact ⟨.right (d.s.lefts i).right, (cd.wf.leftRight i hi).1, e.symm⟩
    obtain ⟨e, hv, rfl⟩ := key
    have hv' : (closeGroup true context d.s d.group).2.Valid e := by
      cases e with
      | left i => exact (show i < _ from u.shape.nextLeft ▸ hv)
      | right i => exact (show i < _ from u.shape.nextRight ▸ hv)
    have := fin.found e hv'
    rw [SameShape.evStart u.shape] at this
    exact this hle hy h2

end

end eventsQueue

end Orient
