import Verif.Lemmas.Passing
import Verif.Lemmas.Orientation
import Verif.Props.SegmentInContour

/-! What `region.relateSegment` finds out about a segment without common pieces with the contour. -/

set_option linter.unusedSectionVars false

namespace Orient

open Segment

variable {K : Type} [Field K] [LinearOrder K] [IsStrictOrderedRing K]

/-! ### the loop over the edges -/

theorem contour.loop_crossed (context : Context K) (s : Segment K) :
    ∀ (es : List (Segment K)) (i : Int) (st st' : contour.LoopState K), st.hasNoCross = false →
      contour.loop context s i es st = .inr st' → st'.hasNoCross = false
  | [], _, _, _, h, he => by cases he; exact h
  | e :: es, i, st, st', h, he => by
    unfold contour.loop at he
    cases hstep : contour.loopStep context s i e st with
    | inl r => rw [hstep] at he; cases he
    | inr st₁ =>
      rw [hstep] at he
      refine contour.loop_crossed context s es (i + 1) st₁ st' ?_ he
      unfold contour.loopStep at hstep
      simp only [h, Bool.false_and, Bool.false_eq_true, if_false, false_and] at hstep
      split_ifs at hstep <;> try (cases hstep; first | exact h | rfl)
      cases hl : st.last <;> rw [hl] at hstep <;> cases hstep <;> exact h

/-- Without common pieces the loops of `contour.relateSegment` and `region.relateSegment` agree. -/
theorem region.loop_eq (context : Context K) (s : Segment K) :
    ∀ (es : List (Segment K)) (i : Int) (t : Bool) (l : Option (Int × Point K)),
      (∀ e ∈ es, Orient.segment.relateSegment e s context = .disjoint ∨
        Orient.segment.relateSegment e s context = .touch ∨
        Orient.segment.relateSegment e s context = .cross) →
      ∃ st, contour.loop context s i es ⟨t, true, l⟩ = .inr st ∧
        region.loop context s i es ⟨t, true, l⟩
          = if st.hasNoCross then .inr ⟨st.hasNoTouch, true, st.last⟩ else .inl .cross
  | [], i, t, l, _ => ⟨_, rfl, rfl⟩
  | e :: es, i, t, l, h => by
    have ih := fun i t l => region.loop_eq context s es i t l fun e he => h e (by simp [he])
    have tot : ∀ (i : Int) (st : contour.LoopState K), ∃ st', contour.loop context s i es st = .inr st' := by
      intro i st
      have : ∀ e ∈ es, Orient.segment.relateSegment e s context = .disjoint ∨
        Orient.segment.relateSegment e s context = .touch ∨
        Orient.segment.relateSegment e s context = .cross := fun e he => h e (by simp [he])
      clear ih h
      induction es generalizing i st with
      | nil => exact ⟨_, rfl⟩
      | cons e es ih =>
        unfold contour.loop contour.loopStep
        rcases this e (by simp) with h | h | h <;> rw [h] <;> simp only [reduceCtorEq, or_self, if_false, if_true,
          and_true, and_false] <;>
          first
            | exact ih _ _ fun e he => this e (by simp [he])
            | (split_ifs <;> exact ih _ _ fun e he => this e (by simp [he]))
    unfold contour.loop region.loop contour.loopStep region.loopStep
    rcases h e (by simp) with h | h | h <;> rw [h] <;> simp only [reduceCtorEq, or_self, if_false, if_true,
      and_true, and_false, Bool.true_and]
    · exact ih _ _ _
    · cases t with
      | true => simp only [if_true]; exact ih _ _ _
      | false =>
        simp only [Bool.false_eq_true, if_false]
        cases l with
        | none => exact ih _ _ _
        | some jx =>
          obtain ⟨j, x⟩ := jx
          simp only
          by_cases hx : (decide (i - j = 1) && Orient.contour.crossesAtVertex context s x e.start e.finish) = true
          · simp only [hx, if_true]
            obtain ⟨st', hst'⟩ := tot (i + 1) ⟨false, false, some (i, e.start)⟩
            exact ⟨st', hst', by rw [contour.loop_crossed context s es _ _ _ rfl hst']; rfl⟩
          · simp only [hx, Bool.false_eq_true, if_false]
            exact ih _ _ _
    · obtain ⟨st', hst'⟩ := tot (i + 1) ⟨t, false, l⟩
      exact ⟨st', hst', by rw [contour.loop_crossed context s es _ _ _ rfl hst']; rfl⟩

theorem region.relateSegmentToContour_eq {context : Context K} {s : Segment K} {c : Contour K}
    (h : ∀ e ∈ context.contourSegments c, Orient.segment.relateSegment e s context = .disjoint ∨
        Orient.segment.relateSegment e s context = .touch ∨
        Orient.segment.relateSegment e s context = .cross) :
    region.relateSegmentToContour c s context = contour.relateSegment c s context := by
  obtain ⟨st, h1, h2⟩ := region.loop_eq context s _ 0 true none h
  unfold region.relateSegmentToContour contour.relateSegment
  rw [h1, h2]
  obtain ⟨t, x, l⟩ := st
  cases x with
  | false => simp
  | true =>
    cases t with
    | true => simp
    | false =>
      simp only [if_true, Bool.true_and, Bool.not_false, decide_eq_true_eq,
        Bool.false_eq_true, if_false]

/-! ### indices -/

theorem pyGet_eq {α : Type} {l : List α} {m : Nat} {a : α} (h : l[m]? = some a) {k : Int}
    (hk : k = m ∨ k = m - l.length) : pyGet l k = .ok a := by
  obtain ⟨hm, rfl⟩ := List.getElem?_eq_some_iff.mp h
  rcases hk with rfl | rfl
  · exact pyGet_of_lt l m hm
  · have := pyGet_neg l (l.length - 1 - m) (by omega)
    have e1 : (-((l.length - 1 - m : Nat) : Int) - 1) = (m : Int) - l.length := by omega
    have e2 : l.length - 1 - (l.length - 1 - m) = m := by omega
    simp only [e1, e2] at this
    exact this

/-- The vertices at an edge and its neighbours. -/
theorem Contour.vertices_at (c : Contour K) (h2 : 2 ≤ c.vertices.length) {i : Nat} {e : Segment K}
    (he : c.edgeList[i]? = some e) :
    pyGet c.vertices ((i : Int) - 1) = .ok e.start ∧ pyGet c.vertices (i : Int) = .ok e.finish ∧
    (∃ a, ⟨a, e.start⟩ ∈ c.edgeList ∧ pyGet c.vertices ((i : Int) - 2) = .ok a) ∧
    ∃ b, ⟨e.finish, b⟩ ∈ c.edgeList ∧ pyGet c.vertices (((i : Int) + 1) % c.vertices.length) = .ok b := by
  have hi : i < c.vertices.length := by
    rw [← Contour.length_edgeList]; exact (List.getElem?_eq_some_iff.mp he).1
  obtain ⟨j, hj⟩ := c.exists_prev hi
  have hj' : j < c.vertices.length := by rcases hj with ⟨h, h'⟩ | ⟨h, h'⟩ <;> omega
  obtain ⟨k, hk⟩ := c.exists_prev hj'
  obtain ⟨l, hl⟩ := c.exists_next hi
  have e1 := Contour.edge_start c h2 hj he
  have e2 := Contour.edge_finish c he
  refine ⟨pyGet_eq e1 ?_, pyGet_eq e2 (.inl rfl), ?_, ?_⟩
  · rcases hj with ⟨h, h'⟩ | ⟨h, h'⟩ <;> omega
  · obtain ⟨p, v, n, h3, h4⟩ := hj.edges h2
    rw [he] at h4
    cases h4
    refine ⟨p, List.mem_of_getElem? h3, pyGet_eq (Contour.edge_start c h2 hk h3) ?_⟩
    rcases hj with ⟨h, h'⟩ | ⟨h, h'⟩ <;> rcases hk with ⟨h5, h6⟩ | ⟨h5, h6⟩ <;> omega
  · obtain ⟨p, v, n, h3, h4⟩ := hl.edges h2
    rw [he] at h3
    cases h3
    refine ⟨n, List.mem_of_getElem? h4, pyGet_eq (Contour.edge_finish c h4) (.inl ?_)⟩
    rcases hl with ⟨h, h'⟩ | ⟨h, h'⟩
    · rw [Int.emod_eq_of_lt (by omega) (by omega)]; omega
    · have : ((i : Int) + 1) = c.vertices.length := by omega
      rw [this, Int.emod_self, h']; rfl

/-- The index found for a point of the boundary. -/
theorem locateLoop_index {context : Context K} (hc : context.Exact) (p : Point K) :
    ∀ (l : List (Segment K)) (i : Nat) (b : Bool), p ∈ segsPts l →
      ∃ (j : Nat) (e : Segment K), region.locateLoop context p i l b = (some ((i + j : Nat) : Int), .boundary) ∧
        l[j]? = some e ∧ p ∈ e.pts
  | [], _, _, h => by obtain ⟨e, he, -⟩ := h; simp at he
  | e :: l, i, b, h => by
    unfold region.locateLoop
    by_cases hp : p ∈ e.pts
    · have : segment.locatePoint e p context = .boundary := by
        simp [segment.locatePoint, (hc.contains e p).mpr hp]
      exact ⟨0, e, by simp [this], rfl, hp⟩
    · have : segment.locatePoint e p context ≠ .boundary := by
        have h' : ¬ context.segmentContainsPoint e p = true := fun h => hp ((hc.contains e p).mp h)
        simp [segment.locatePoint, h']
      rw [if_neg this]
      have h' : p ∈ segsPts l := by
        obtain ⟨f, hf, hpf⟩ := h
        rcases List.mem_cons.mp hf with rfl | hf
        · exact absurd hpf hp
        · exact ⟨f, hf, hpf⟩
      obtain ⟨j, f, h1, h2, h3⟩ := locateLoop_index hc p l (i + 1)
        (if region.rayCrosses context p e.start e.finish = true then !b else b) h'
      refine ⟨j + 1, f, ?_, by simpa using h2, h3⟩
      have e1 : ((i + 1 : Nat) : Int) = (i : Int) + 1 := by omega
      rw [e1] at h1
      rw [h1]
      congr 3
      omega

/-! ### the tests at the endpoints -/

theorem cross_far (a b w far : Point K) (h : cross a b w = 0) (r : K) :
    cross a b (lerp w far r) = r * cross a b far := by
  rw [cross_lerp, h]; ring

theorem pos_far {r x : K} (r0 : 0 < r) : (0 < r * x ↔ 0 < x) ∧ (r * x < 0 ↔ x < 0) :=
  ⟨by rw [mul_pos_iff]; constructor
      · rintro (h | h)
        · exact h.2
        · exact absurd h.1 r0.not_gt
      · exact fun h => .inl ⟨r0, h⟩,
   by rw [mul_neg_iff]; constructor
      · rintro (h | h)
        · exact h.2
        · exact absurd h.1 r0.not_gt
      · exact fun h => .inl ⟨r0, h⟩⟩

/-- The test at a point which is not a vertex. -/
theorem Contour.Simple.edge_test {context : Context K} (hc : context.Exact) {c : Contour K} (h : c.Simple)
    {p v q : Point K} (hl : c.LeastCorner p v q) (hn : cross p v q ≠ 0) {e : Segment K}
    (he : e ∈ c.edgeList) {w far : Point K} (hw : w ∈ e.pts) (hend : ¬ e.IsEndpoint w) (hne : w ≠ far) {r : K} (r0 : 0 < r)
    (hx : Seen c w (lerp w far r)) :
    context.angleOrientation e.finish e.start far = context.angleOrientation p v q ↔
      lerp w far r ∉ c.interior := by
  have hne' : w ≠ lerp w far r := fun h => r0.ne (lerp_injective hne ((lerp_zero w far).trans h))
  have h0 : cross e.start e.finish (lerp w far r) ≠ 0 := by
    intro h0
    have hcol : e.Collinear ⟨w, lerp w far r⟩ := ⟨Segment.cross_eq_zero hw, h0⟩
    obtain ⟨a, ha, b, hb, hab⟩ := hcol.nontrivial_of_inner (t := ⟨w, lerp w far r⟩) (h.nondegenerate he)
      hne' ⟨hw, hend⟩ (Segment.start_mem _)
    by_cases ham : a = w
    · exact hx b hb.2 (fun h => hab (ham.trans h.symm)) ⟨e, he, hb.1⟩
    · exact hx a ha.2 ham ⟨e, he, ha.1⟩
  rw [h.seen_edge hl he hw hend hx h0]
  have e1 := cross_far e.start e.finish w far (Segment.cross_eq_zero hw) r
  rw [e1] at h0 ⊢
  rw [(pos_far r0).1]
  have h0 : cross e.start e.finish far ≠ 0 := fun h => h0 (by rw [h, mul_zero])
  have e2 : cross e.finish e.start far = - cross e.start e.finish far := cross_flip ..
  rcases lt_or_gt_of_ne hn with h1 | h1
  · rw [(hc.clockwise p v q).mpr h1, hc.clockwise, e2]
    have : ¬ 0 < cross p v q := h1.not_gt
    simp [this]
  · rw [(hc.counterclockwise p v q).mpr h1, hc.counterclockwise, e2]
    simp only [h1, iff_true, not_lt, Left.neg_pos_iff]
    exact ⟨le_of_lt, fun h => lt_of_le_of_ne h h0⟩

/-- The test at a vertex. -/
theorem Contour.Simple.corner_test {context : Context K} (hc : context.Exact) {c : Contour K}
    (h : c.Simple) {p v q : Point K} (hl : c.LeastCorner p v q) (hccw : 0 < cross p v q)
    {a w b : Point K} (h1 : ⟨a, w⟩ ∈ c.edgeList) (h2 : ⟨w, b⟩ ∈ c.edgeList) {far : Point K}
    (hne : w ≠ far) {r : K} (r0 : 0 < r) (hx : Seen c w (lerp w far r)) :
    (if context.angleOrientation a w b = .counterclockwise then
      context.angleOrientation w a far = .counterclockwise ∨
        context.angleOrientation b w far = .counterclockwise
    else context.angleOrientation w a far = context.angleOrientation b w far ∧
        context.angleOrientation b w far = .counterclockwise) ↔ lerp w far r ∉ c.interior := by
  have hne' : w ≠ lerp w far r := fun h => r0.ne (lerp_injective hne ((lerp_zero w far).trans h))
  obtain ⟨s1, s2⟩ := h.seen_corner hl h1 h2 hne' hx
  rw [s1]
  simp only [hccw, iff_true]
  rw [← s2]
  unfold CornerRight
  have w1 : cross a w w = 0 := by simp only [cross]; ring
  have w2 : cross w b w = 0 := by simp only [cross]; ring
  rw [cross_far a w w far w1, cross_far w b w far w2, (pos_far r0).2, (pos_far r0).2]
  have e1 : cross w a far = - cross a w far := cross_flip ..
  have e2 : cross b w far = - cross w b far := cross_flip ..
  have k1 := hc.counterclockwise w a far
  have k2 := hc.counterclockwise b w far
  rw [e1, neg_pos] at k1
  rw [e2, neg_pos] at k2
  rw [← k1, ← k2]
  have k3 := hc.counterclockwise a w b
  simp only [k3]
  split_ifs
  · rfl
  · constructor
    · rintro ⟨h, h'⟩; exact ⟨h.trans h', h'⟩
    · rintro ⟨h, h'⟩; exact ⟨h.trans h'.symm, h'⟩

/-- The test at the end of a segment. -/
theorem touchesAtEnd_spec {context : Context K} (hc : context.Exact) {c : Contour K} (h : c.Simple)
    {p v q : Point K} (hl : c.LeastCorner p v q) (hn : cross p v q ≠ 0) {i : Nat} {e : Segment K}
    (he : c.edgeList[i]? = some e) {start finish : Point K} (hw : finish ∈ e.pts) (hne : finish ≠ start)
    {r : K} (r0 : 0 < r) (hx : Seen c finish (lerp finish start r))
    (hside : 0 < cross p v q ∨ ¬ e.IsEndpoint finish) :
    ∃ b, region.touchesAtEnd context c.vertices (context.angleOrientation p v q) i start finish = .ok b ∧
      (b = true ↔ lerp finish start r ∉ c.interior) := by
  have h2 : 2 ≤ c.vertices.length := by have := h.three; omega
  obtain ⟨g1, g2, ⟨a, ha, g3⟩, b, hb, g4⟩ := c.vertices_at h2 he
  have hm := List.mem_of_getElem? he
  unfold region.touchesAtEnd
  simp only [g1, g2, g3, g4, bind, Except.bind, pure, Except.pure]
  by_cases e1 : finish = e.start
  · have hccw : 0 < cross p v q := hside.resolve_right (not_not.mpr (.inl e1))
    have ho := (hc.counterclockwise p v q).mpr hccw
    subst e1
    have := h.corner_test hc hl hccw (far := start) ha hm hne r0 hx
    rw [← this]
    simp only [ho, decide_true, if_true]
    split_ifs <;> exact ⟨_, rfl, by simp⟩
  · by_cases e2 : finish = e.finish
    · have hccw : 0 < cross p v q := hside.resolve_right (not_not.mpr (.inr e2))
      have ho := (hc.counterclockwise p v q).mpr hccw
      subst e2
      have := h.corner_test hc hl hccw (far := start) hm hb hne r0 hx
      rw [← this]
      simp only [ho, decide_true, if_true, e1, if_false]
      split_ifs <;> exact ⟨_, rfl, by simp⟩
    · simp only [e1, e2, if_false]
      refine ⟨_, rfl, ?_⟩
      rw [decide_eq_true_eq]
      exact h.edge_test hc hl hn hm hw (by rintro (h | h) <;> [exact e1 h; exact e2 h]) hne r0 hx

/-- The test at the start of a segment. -/
theorem touchesAtStart_spec {context : Context K} (hc : context.Exact) {c : Contour K} (h : c.Simple)
    {p v q : Point K} (hl : c.LeastCorner p v q) (hn : cross p v q ≠ 0) {i : Nat} {e : Segment K}
    (he : c.edgeList[i]? = some e) {start finish : Point K} (hw : start ∈ e.pts) (hne : start ≠ finish)
    {r : K} (r0 : 0 < r) (hx : Seen c start (lerp start finish r))
    (hside : 0 < cross p v q ∨ ¬ e.IsEndpoint start) :
    ∃ b, region.touchesAtStart context c.vertices (context.angleOrientation p v q) i start finish = .ok b ∧
      (b = true → lerp start finish r ∉ c.interior) := by
  have h2 : 2 ≤ c.vertices.length := by have := h.three; omega
  obtain ⟨g1, g2, ⟨a, ha, g3⟩, b, hb, g4⟩ := c.vertices_at h2 he
  have hm := List.mem_of_getElem? he
  unfold region.touchesAtStart
  simp only [g1, g2, g3, g4, bind, Except.bind, pure, Except.pure]
  by_cases e1 : start = e.start
  · have hccw : 0 < cross p v q := hside.resolve_right (not_not.mpr (.inl e1))
    have ho := (hc.counterclockwise p v q).mpr hccw
    subst e1
    have := h.corner_test hc hl hccw (far := finish) ha hm hne r0 hx
    rw [← this]
    simp only [ho, decide_true, if_true]
    split_ifs <;> exact ⟨_, rfl, by simp⟩
  · by_cases e2 : start = e.finish
    · have hccw : 0 < cross p v q := hside.resolve_right (not_not.mpr (.inr e2))
      have ho := (hc.counterclockwise p v q).mpr hccw
      subst e2
      have := h.corner_test hc hl hccw (far := finish) hm hb hne r0 hx
      rw [← this]
      simp only [ho, decide_true, if_true, e1, if_false]
      split_ifs with h3 h4
      · exact ⟨_, rfl, fun _ => h4⟩
      · refine ⟨_, rfl, fun h5 => ?_⟩
        simp only [Bool.and_eq_true, decide_eq_true_eq] at h5
        exact .inr h5.2
      · exact ⟨_, rfl, by simp⟩
    · simp only [e1, e2, if_false]
      refine ⟨_, rfl, ?_⟩
      rw [decide_eq_true_eq]
      exact (h.edge_test hc hl hn hm hw (by rintro (h | h) <;> [exact e1 h; exact e2 h]) hne r0 hx).mp

end Orient
