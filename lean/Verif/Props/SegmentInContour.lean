import Verif.Model.Planar
import Verif.Lemmas.SegmentInContour
import Verif.Lemmas.Orientation
import Verif.Lemmas.SimpleCheck
import Verif.Lemmas.Reference
import Mathlib.Algebra.Field.Rat
import Mathlib.Algebra.Order.Ring.Rat

/-! C08, C09: `segment_in_contour`. -/

set_option linter.unusedSectionVars false

namespace Orient.Props

variable {K : Type} [Field K] [LinearOrder K] [IsStrictOrderedRing K]

open Segment Orient.contour

theorem relAt_iff {context : Context K} (hc : context.Exact) {s : Segment K} (hs : s.Nondegenerate)
    {c : Contour K} (h : c.Simple) {i : Nat} {r : Relation} :
    RelAt context s c.edgeList r i ↔ ∃ e, c.edgeList[i]? = some e ∧ SegmentsRel s e r := by
  constructor
  · rintro ⟨e, he, hr⟩
    exact ⟨e, he, (hc.relation_eq_iff hs (h.nondegenerate (List.mem_of_getElem? he)) r).mp hr⟩
  · rintro ⟨e, he, hr⟩
    exact ⟨e, he, (hc.relation_eq_iff hs (h.nondegenerate (List.mem_of_getElem? he)) r).mpr hr⟩

theorem segmentsRel_of_inner {s t : Segment K} {p : Point K}
    (hsub : (s.pts ∩ t.pts).Subsingleton) (hp : s.Inner p) (hpt : p ∈ t.pts) :
    (¬ t.IsEndpoint p → SegmentsRel s t .cross) ∧ (t.IsEndpoint p → SegmentsRel s t .touch) := by
  have e : s.pts ∩ t.pts = {p} := by
    apply Set.Subset.antisymm
    · intro q hq; exact hsub hq ⟨hp.1, hpt⟩
    · rintro q rfl; exact ⟨hp.1, hpt⟩
  exact ⟨fun h => ⟨p, e, hp.2, h⟩, fun h => ⟨p, e, .inr h⟩⟩

/-- Crossings of a segment and a simple contour which share no piece. -/
theorem crossed_iff {context : Context K} (hc : context.Exact) {s : Segment K}
    (hs : s.Nondegenerate) {c : Contour K} (h : c.Simple)
    (hsub : ∀ e ∈ c.edgeList, (s.pts ∩ e.pts).Subsingleton) :
    s.CrossedBy c.pts ↔ (∃ i, RelAt context s c.edgeList .cross i) ∨
      ∃ i j, c.Next i j ∧ RelAt context s c.edgeList .touch i ∧
        RelAt context s c.edgeList .touch j ∧ VertexAt context s c.edgeList i j := by
  have h2 : 2 ≤ c.vertices.length := by have := h.three; omega
  unfold Contour.pts
  rw [crossedBy_iff]
  simp only [relAt_iff hc hs h]
  constructor
  · rintro ⟨p, hp, ⟨t, ht, hup⟩, t', ht', hdn⟩
    obtain ⟨i, hi⟩ := List.mem_iff_getElem?.mp ht
    obtain ⟨j, hj⟩ := List.mem_iff_getElem?.mp ht'
    by_cases h1 : t.IsEndpoint p
    · by_cases h1' : t'.IsEndpoint p
      · right
        have key : ∀ {n : Point K}, p ≠ n → (s.pts ∩ (⟨p, n⟩ : Segment K).pts).Subsingleton →
            ((∃ a ∈ (⟨p, n⟩ : Segment K).pts, 0 < cross s.lo s.hi a) → 0 < cross s.lo s.hi n) ∧
            ((∃ a ∈ (⟨p, n⟩ : Segment K).pts, cross s.lo s.hi a < 0) → cross s.lo s.hi n < 0) := by
          intro n hpn hsub
          obtain ⟨-, g1, g2⟩ := goes_of_touch hs hpn hp hsub
          exact ⟨fun h => g1.mp ⟨start_mem _, h⟩, fun h => g2.mp ⟨start_mem _, h⟩⟩
        -- the other endpoint of an edge at `p`
        have other : ∀ {t : Segment K}, t ∈ c.edgeList → t.IsEndpoint p →
            ((p = t.start → (s.Up t p → 0 < cross s.lo s.hi t.finish) ∧
                (s.Down t p → cross s.lo s.hi t.finish < 0)) ∧
              (p = t.finish → (s.Up t p → 0 < cross s.lo s.hi t.start) ∧
                (s.Down t p → cross s.lo s.hi t.start < 0))) := by
          rintro ⟨a, b⟩ ht -
          have hab : a ≠ b := h.nondegenerate ht
          have hsb := hsub _ ht
          have erev : (⟨b, a⟩ : Segment K).pts = (⟨a, b⟩ : Segment K).pts := pts_reverse ⟨a, b⟩
          refine ⟨?_, ?_⟩
          · rintro rfl
            exact ⟨fun h => (key hab hsb).1 h.2, fun h => (key hab hsb).2 h.2⟩
          · rintro rfl
            have := key (n := a) hab.symm (by rw [erev]; exact hsb)
            rw [erev] at this
            exact ⟨fun h => this.1 h.2, fun h => this.2 h.2⟩
        have hij : i ≠ j := by
          rintro rfl
          rw [hi] at hj
          cases hj
          obtain ⟨o1, o2⟩ := other ht h1
          rcases h1 with h1 | h1
          · exact lt_asymm ((o1 h1).1 hup) ((o1 h1).2 hdn)
          · exact lt_asymm ((o2 h1).1 hup) ((o2 h1).2 hdn)
        have tt := (segmentsRel_of_inner (hsub t ht) hp hup.1).2 h1
        have tt' := (segmentsRel_of_inner (hsub t' ht') hp hdn.1).2 h1'
        obtain ⟨o1, o2⟩ := other ht h1
        obtain ⟨o1', o2'⟩ := other ht' h1'
        have fin : ∀ {i j : Nat} {e f : Segment K}, c.edgeList[i]? = some e →
            c.edgeList[j]? = some f → SegmentsRel s e .touch → SegmentsRel s f .touch →
            p = e.finish → p = f.start →
            cross s.lo s.hi e.start * cross s.lo s.hi f.finish < 0 →
            VertexAt context s c.edgeList i j := by
          rintro i j ⟨a, v⟩ ⟨v', n⟩ he hf ete etf hev hfv hneg
          simp only at hev hfv hneg
          subst hev hfv
          refine ⟨_, _, he, hf, ?_⟩
          rw [crossesAtVertex_iff hc hs (h.nondegenerate (List.mem_of_getElem? he))
            (h.nondegenerate (List.mem_of_getElem? hf)) ete etf]
          rw [mul_lo_hi] at hneg
          exact ⟨hp, hneg⟩
        rcases h.next_of_common hi hj hij h1 h1' with ⟨hn, e1, e2⟩ | ⟨hn, e1, e2⟩
        · refine ⟨i, j, hn, ⟨t, hi, tt⟩, ⟨t', hj, tt'⟩, fin hi hj tt tt' e1 e2 ?_⟩
          exact mul_neg_of_pos_of_neg ((o2 e1).1 hup) ((o1' e2).2 hdn)
        · refine ⟨j, i, hn, ⟨t', hj, tt'⟩, ⟨t, hi, tt⟩, fin hj hi tt' tt e1 e2 ?_⟩
          exact mul_neg_of_neg_of_pos ((o2' e1).2 hdn) ((o1 e2).1 hup)
      · exact .inl ⟨j, t', hj, (segmentsRel_of_inner (hsub t' ht') hp hdn.1).1 h1'⟩
    · exact .inl ⟨i, t, hi, (segmentsRel_of_inner (hsub t ht) hp hup.1).1 h1⟩
  · rintro (⟨i, e, he, hr⟩ | ⟨i, j, hn, ⟨e, he, hre⟩, ⟨f, hf, hrf⟩, e', f', he', hf', hv⟩)
    · have hm := List.mem_of_getElem? he
      obtain ⟨p, hp, h1, h2⟩ := goes_of_cross hs (h.nondegenerate hm) hr
      exact ⟨p, hp, ⟨e, hm, h1⟩, e, hm, h2⟩
    · obtain ⟨p, v, n, h3, h4⟩ := hn.edges h2
      rw [h3] at he he'
      rw [h4] at hf hf'
      cases he; cases he'; cases hf; cases hf'
      have hm := List.mem_of_getElem? h3
      have hm' := List.mem_of_getElem? h4
      rw [crossesAtVertex_iff hc hs (h.nondegenerate hm) (h.nondegenerate hm') hre hrf,
        ← mul_lo_hi] at hv
      obtain ⟨hv, hneg⟩ := hv
      refine ⟨v, hv, ?_⟩
      rcases mul_neg_iff.mp hneg with ⟨a, b⟩ | ⟨a, b⟩
      · exact ⟨⟨_, hm, finish_mem _, p, start_mem _, a⟩, ⟨_, hm', start_mem _, n, finish_mem _, b⟩⟩
      · exact ⟨⟨_, hm', start_mem _, n, finish_mem _, b⟩, ⟨_, hm, finish_mem _, p, start_mem _, a⟩⟩

theorem segmentInContour_spec {context : Context K} (hc : context.Exact) {s : Segment K}
    (hs : s.Nondegenerate) {c : Contour K} (h : c.Simple) :
    ∃ r, planar.segmentInContour s c context = .ok r ∧ ContourRel s c r := by
  have h3 := h.three
  unfold planar.segmentInContour relateSegment
  rw [hc.contourSegments]
  have hr : ∀ i r, RelAt context s c.edgeList r i →
      r ≠ .cover ∧ r ≠ .encloses ∧ r ≠ .enclosed ∧ r ≠ .within := by
    intro i r hir
    obtain ⟨e, -, he⟩ := (relAt_iff hc hs h).mp hir
    cases r <;> simp only [SegmentsRel] at he <;> simp
  have piece : ∀ {e : Segment K}, e ∈ c.edgeList → (s.pts ∩ e.pts).Nontrivial →
      SharesPiece s.pts c.pts := fun he hn => (sharesPiece_iff _ _).mpr ⟨_, he, hn⟩
  rcases loop_spec (es := c.edgeList) c.edgeList 0 _ rfl Inv.init hr with ⟨e1, i, hi⟩ | ⟨e1, i, hi⟩ | ⟨st, e1, hinv⟩
  · simp only [Nat.cast_zero] at e1
    simp only [e1]
    refine ⟨_, rfl, ?_⟩
    rw [relAt_iff hc hs h, relAt_iff hc hs h] at hi
    rcases hi with ⟨e, he, hr⟩ | ⟨e, he, hr⟩
    · exact ⟨e, List.mem_of_getElem? he, hr.1⟩
    · exact ⟨e, List.mem_of_getElem? he, (show s.pts = e.pts from hr).le⟩
  · simp only [Nat.cast_zero] at e1
    simp only [e1]
    refine ⟨_, rfl, ?_⟩
    rw [relAt_iff hc hs h, relAt_iff hc hs h] at hi
    have : ∃ e, c.edgeList[i]? = some e ∧ (s.pts ∩ e.pts).Nontrivial ∧ ¬ s.pts ⊆ e.pts := by
      rcases hi with ⟨e, he, hr⟩ | ⟨e, he, hr⟩
      · exact ⟨e, he, hr.2.2, hr.1⟩
      · refine ⟨e, he, ?_, hr.2⟩
        rw [Set.inter_eq_right.mpr hr.1]
        exact pts_nontrivial (h.nondegenerate (List.mem_of_getElem? he))
    obtain ⟨e, he, hn, hns⟩ := this
    refine ⟨?_, piece (List.mem_of_getElem? he) hn⟩
    rintro ⟨f, hf, hsf⟩
    obtain ⟨j, hj⟩ := List.mem_iff_getElem?.mp hf
    by_cases hij : i = j
    · subst hij
      rw [he] at hj
      cases hj
      exact hns hsf
    · have := Segment.inter_subsingleton
        (fun p hp => h.meet_getElem he hj hij (p := p) hp.1 hp.2)
      exact Set.not_subsingleton_iff.mpr
        (hn.mono (fun p (hp : p ∈ s.pts ∩ e.pts) =>
          (⟨hp.2, hsf hp.1⟩ : p ∈ e.pts ∩ f.pts))) this
  · simp only [Nat.cast_zero] at e1
    simp only [Nat.zero_add, Contour.length_edgeList] at hinv
    simp only [e1]
    have hsub : ∀ e ∈ c.edgeList, (s.pts ∩ e.pts).Subsingleton := by
      intro e he
      obtain ⟨i, hi⟩ := List.mem_iff_getElem?.mp he
      have hlt : i < c.vertices.length := by
        rw [← Contour.length_edgeList]; exact (List.getElem?_eq_some_iff.mp hi).1
      have hrel := hc.relation s e hs (h.nondegenerate he)
      rcases hinv.sub i hlt _ ⟨e, hi, rfl⟩ with h' | h' | h' <;> rw [h'] at hrel
      · rw [show s.pts ∩ e.pts = ∅ from hrel]; exact Set.subsingleton_empty
      · obtain ⟨p, hp, -⟩ := hrel; rw [hp]; exact Set.subsingleton_singleton
      · obtain ⟨p, hp, -⟩ := hrel; rw [hp]; exact Set.subsingleton_singleton
    have hP : ¬ SharesPiece s.pts c.pts := by
      unfold Contour.pts
      rw [sharesPiece_iff]
      rintro ⟨e, he, hn⟩
      exact Set.not_subsingleton_iff.mpr hn (hsub e he)
    have hlt : ∀ {i r}, RelAt context s c.edgeList r i → i < c.vertices.length := by
      rintro i r ⟨e, he, -⟩
      rw [← Contour.length_edgeList]; exact (List.getElem?_eq_some_iff.mp he).1
    have inBounds : (s.pts ∩ c.pts).Nonempty → ∃ i, RelAt context s c.edgeList .touch i ∨
        RelAt context s c.edgeList .cross i := by
      rintro ⟨p, hp, e, he, hpe⟩
      obtain ⟨i, hi⟩ := List.mem_iff_getElem?.mp he
      have hrel := hc.relation s e hs (h.nondegenerate he)
      have hlt : i < c.vertices.length := by
        rw [← Contour.length_edgeList]; exact (List.getElem?_eq_some_iff.mp hi).1
      refine ⟨i, ?_⟩
      rcases hinv.sub i hlt _ ⟨e, hi, rfl⟩ with h' | h' | h'
      · rw [h'] at hrel
        exact absurd ⟨hp, hpe⟩ (Set.eq_empty_iff_forall_notMem.mp hrel p)
      · exact .inl ⟨e, hi, h'⟩
      · exact .inr ⟨e, hi, h'⟩
    have hX := crossed_iff hc hs h hsub
    -- the answer, given the final value of `hasNoCross`
    have fin : ∀ b : Bool, (b = false ↔ s.CrossedBy c.pts) →
        ContourRel s c (if b = true then (if st.hasNoTouch = true then .disjoint else .touch)
          else .cross) := by
      intro b hb
      cases b with
      | false =>
        exact ⟨hP, hb.mp rfl⟩
      | true =>
        have hnX : ¬ s.CrossedBy c.pts := fun hx => by cases hb.mpr hx
        simp only [if_true]
        by_cases hT : st.hasNoTouch = true
        · rw [if_pos hT]
          change _ = ∅
          by_contra hne
          obtain ⟨i, hi | hi⟩ := inBounds (Set.nonempty_iff_ne_empty.mpr hne)
          · exact hinv.touch.mp hT i (hlt hi) hi
          · exact hnX (hX.mpr (.inl ⟨i, hi⟩))
        · rw [if_neg hT]
          refine ⟨hP, hnX, ?_⟩
          by_contra hne
          apply hT
          rw [hinv.touch]
          rintro i - hi
          obtain ⟨e, he, q, hq, -⟩ := (relAt_iff hc hs h).mp hi
          have hqm : q ∈ s.pts ∩ e.pts := by rw [hq]; rfl
          exact hne ⟨q, hqm.1, e, List.mem_of_getElem? he, hqm.2⟩
    -- the crossing found so far, and the last vertex
    have hwrap : s.CrossedBy c.pts ↔ st.hasNoCross = false ∨
        (RelAt context s c.edgeList .touch (c.vertices.length - 1) ∧
          RelAt context s c.edgeList .touch 0 ∧
          VertexAt context s c.edgeList (c.vertices.length - 1) 0) := by
      rw [hX, hinv.cross]
      constructor
      · rintro (⟨i, hi⟩ | ⟨i, j, hn, h1, h2, h4⟩)
        · exact .inl (.inl ⟨i, hlt hi, hi⟩)
        · rcases hn with ⟨rfl, hl⟩ | ⟨e, rfl⟩
          · exact .inl (.inr ⟨i, hl, h1, h2, h4⟩)
          · have : i = c.vertices.length - 1 := by omega
            subst this
            exact .inr ⟨h1, h2, h4⟩
      · rintro ((⟨i, -, hi⟩ | ⟨i, hl, h1, h2, h4⟩) | ⟨h1, h2, h4⟩)
        · exact .inl ⟨i, hi⟩
        · exact .inr ⟨i, i + 1, .inl ⟨rfl, hl⟩, h1, h2, h4⟩
        · exact .inr ⟨_, 0, .inr ⟨by omega, rfl⟩, h1, h2, h4⟩
    have g1 : pyGet c.vertices (-1) = .ok (c.vertices[c.vertices.length - 1]'(by omega)) := by
      have := pyGet_neg c.vertices 0 (by omega)
      simpa using this
    have g2 : pyGet c.vertices (-2) = .ok (c.vertices[c.vertices.length - 2]'(by omega)) := by
      have := pyGet_neg c.vertices 1 (by omega)
      simpa [Nat.sub_sub] using this
    have g0 : pyGet c.vertices 0 = .ok (c.vertices[0]'(by omega)) := by
      have := pyGet_of_lt c.vertices 0 (by omega)
      simpa using this
    have e0 := Contour.edge_zero c (by omega)
    have el : c.edgeList[c.vertices.length - 1]? = some ⟨c.vertices[c.vertices.length - 2]'(by omega),
        c.vertices[c.vertices.length - 1]'(by omega)⟩ := by
      have := Contour.edge_succ c (c.vertices.length - 2) (by omega)
      have ee : c.vertices.length - 2 + 1 = c.vertices.length - 1 := by omega
      simp only [ee] at this
      exact this
    have t0 : RelAt context s c.edgeList .touch 0 ↔ Orient.segment.relateSegment
        ⟨c.vertices[c.vertices.length - 1]'(by omega), c.vertices[0]'(by omega)⟩ s context
          = .touch := by
      constructor
      · rintro ⟨e, he, hr⟩
        rw [e0] at he
        cases he
        exact hr
      · intro hr
        exact ⟨_, e0, hr⟩
    have tv : VertexAt context s c.edgeList (c.vertices.length - 1) 0 ↔
        crossesAtVertex context s (c.vertices[c.vertices.length - 2]'(by omega))
          (c.vertices[c.vertices.length - 1]'(by omega)) (c.vertices[0]'(by omega)) = true := by
      constructor
      · rintro ⟨e, f, he, hf, hv⟩
        rw [e0] at hf
        rw [el] at he
        cases he; cases hf
        exact hv
      · intro hv
        exact ⟨_, _, el, e0, hv⟩
    have tl : (st.last.map Prod.fst = some ((c.vertices.length : Int) - 1)) ↔
        RelAt context s c.edgeList .touch (c.vertices.length - 1) := by
      rw [← hinv.touched (by omega)]
      cases st.last with
      | none => simp
      | some jx => obtain ⟨j, x⟩ := jx; simp
    rw [t0, tv] at hwrap
    by_cases hcond : (st.hasNoCross && !st.hasNoTouch &&
        decide (st.last.map Prod.fst = some ((c.vertices.length : Int) - 1))) = true
    · simp only [hcond, if_true, g1, g2, g0, bind, Except.bind]
      simp only [Bool.and_eq_true, decide_eq_true_eq] at hcond
      have hx : st.hasNoCross = true := hcond.1.1
      have htl := tl.mp hcond.2
      by_cases hre : Orient.segment.relateSegment
          ⟨c.vertices[c.vertices.length - 1]'(by omega), c.vertices[0]'(by omega)⟩ s context = .touch
      · simp only [hre, if_true]
        by_cases hv : crossesAtVertex context s (c.vertices[c.vertices.length - 2]'(by omega))
          (c.vertices[c.vertices.length - 1]'(by omega)) (c.vertices[0]'(by omega)) = true
        · simp only [hv, if_true]
          exact ⟨_, rfl, fin false (by rw [hwrap]; simp [htl, hre, hv])⟩
        · simp only [hv, Bool.false_eq_true, if_false]
          exact ⟨_, rfl, fin st.hasNoCross (by rw [hwrap]; simp [hv])⟩
      · simp only [hre, if_false]
        exact ⟨_, rfl, fin st.hasNoCross (by rw [hwrap]; simp [hre])⟩
    · simp only [hcond, Bool.false_eq_true, if_false]
      refine ⟨_, rfl, fin st.hasNoCross ?_⟩
      rw [hwrap]
      constructor
      · exact .inl
      · rintro (h' | ⟨h1, -⟩)
        · exact h'
        · by_contra hx
          apply hcond
          simp only [Bool.not_eq_false] at hx
          have hT : st.hasNoTouch = false := by
            rw [Bool.eq_false_iff]
            intro ht
            exact hinv.touch.mp ht _ (hlt h1) h1
          simp only [hx, hT, tl.mpr h1, Bool.not_false, Bool.and_self, decide_true]

theorem ContourRel.unique {s : Segment K} (hs : s.Nondegenerate) {c : Contour K} {r r' : Relation}
    (h : ContourRel s c r) (h' : ContourRel s c r') : r = r' := by
  have p1 : (∃ e ∈ c.edgeList, s.pts ⊆ e.pts) → SharesPiece s.pts c.pts :=
    fun ⟨e, he, hse⟩ => ⟨s, hs, le_rfl, hse.trans (subset_segsPts he)⟩
  have p2 : SharesPiece s.pts c.pts → ¬ s.pts ∩ c.pts = ∅ := fun h => h.inter_nonempty.ne_empty
  have p3 : s.CrossedBy c.pts → ¬ s.pts ∩ c.pts = ∅ := fun h => h.inter_nonempty.ne_empty
  have p4 : (s.pts ∩ c.pts).Nonempty → ¬ s.pts ∩ c.pts = ∅ := fun h => h.ne_empty
  cases r <;> cases r' <;> simp only [ContourRel] at h h' <;>
    generalize (∃ e ∈ c.edgeList, s.pts ⊆ e.pts) = A at * <;> first | rfl | (exfalso; tauto)

/-- C08: `segment_in_contour` never raises for simple contours, and each answer is given exactly when
the sets of points stand in that relation. -/
theorem C08_segment_in_contour {context : Context K} (hc : context.Exact) {s : Segment K}
    (hs : s.Nondegenerate) {c : Contour K} (h : c.Simple) (r : Relation) :
    planar.segmentInContour s c context = .ok r ↔ ContourRel s c r := by
  obtain ⟨r', e, hr'⟩ := segmentInContour_spec hc hs h
  rw [e]
  constructor
  · intro h; cases h; exact hr'
  · intro h; rw [ContourRel.unique hs hr' h]

/-- C08: what a crossing is in terms of edges and vertices. -/
theorem C08_cross {context : Context K} (hc : context.Exact) {s : Segment K}
    (hs : s.Nondegenerate) {c : Contour K} (h : c.Simple) :
    planar.segmentInContour s c context = .ok .cross ↔
      (∀ e ∈ c.edgeList, (s.pts ∩ e.pts).Subsingleton) ∧
      ((∃ e ∈ c.edgeList, ∃ p ∈ s.pts ∩ e.pts, ¬ s.IsEndpoint p ∧ ¬ e.IsEndpoint p) ∨
        ∃ p v q, ⟨p, v⟩ ∈ c.edgeList ∧ ⟨v, q⟩ ∈ c.edgeList ∧ v ∈ s.pts ∧ ¬ s.IsEndpoint v ∧
          cross s.start s.finish p * cross s.start s.finish q < 0) := by
  have h2 : 2 ≤ c.vertices.length := by have := h.three; omega
  rw [C08_segment_in_contour hc hs h]
  have hP : ¬ SharesPiece s.pts c.pts ↔ ∀ e ∈ c.edgeList, (s.pts ∩ e.pts).Subsingleton := by
    unfold Contour.pts
    rw [sharesPiece_iff]
    push Not
    rfl
  change (¬ SharesPiece s.pts c.pts ∧ _) ↔ _
  rw [hP]
  refine and_congr_right (fun hsub => ?_)
  constructor
  · rw [crossed_iff hc hs h hsub]
    simp only [relAt_iff hc hs h]
    rintro (⟨i, e, he, p, hp, h1, h2⟩ |
      ⟨i, j, hn, ⟨e, he, hre⟩, ⟨f, hf, hrf⟩, e', f', he', hf', hv⟩)
    · exact .inl ⟨e, List.mem_of_getElem? he, p, by rw [hp]; rfl, h1, h2⟩
    · obtain ⟨p, v, n, h3, h4⟩ := hn.edges h2
      rw [h3] at he he'
      rw [h4] at hf hf'
      cases he; cases he'; cases hf; cases hf'
      have hm := List.mem_of_getElem? h3
      have hm' := List.mem_of_getElem? h4
      rw [crossesAtVertex_iff hc hs (h.nondegenerate hm) (h.nondegenerate hm') hre hrf] at hv
      exact .inr ⟨p, v, n, hm, hm', hv.1.1, hv.1.2, hv.2⟩
  · unfold Contour.pts
    rw [crossedBy_iff]
    rintro (⟨e, he, p, hp, h1, h2⟩ | ⟨p, v, q, hp, hq, hv, hv', hneg⟩)
    · obtain ⟨r, hr, h3, h4⟩ := goes_of_cross hs (h.nondegenerate he)
        ((segmentsRel_of_inner (hsub e he) ⟨hp.1, h1⟩ hp.2).1 h2)
      exact ⟨r, hr, ⟨e, he, h3⟩, e, he, h4⟩
    · rw [← mul_lo_hi] at hneg
      refine ⟨v, ⟨hv, hv'⟩, ?_⟩
      rcases mul_neg_iff.mp hneg with ⟨a, b⟩ | ⟨a, b⟩
      · exact ⟨⟨_, hp, finish_mem _, p, start_mem _, a⟩, ⟨_, hq, start_mem _, q, finish_mem _, b⟩⟩
      · exact ⟨⟨_, hq, start_mem _, q, finish_mem _, b⟩, ⟨_, hp, finish_mem _, p, start_mem _, a⟩⟩

/-- The edges of the same cycle are the same up to direction. -/
theorem sameCycle_edges {c d : Contour K} (h : c.SameCycle d) {P : Set (Point K) → Prop} :
    (∃ e ∈ c.edgeList, P e.pts) ↔ ∃ e ∈ d.edgeList, P e.pts := by
  obtain ⟨vs⟩ := c
  obtain ⟨ws⟩ := d
  obtain ⟨k, hk | hk⟩ := h <;> simp only at hk <;> subst hk
  · simp only [Contour.edgeList_rotate, List.mem_rotate]
  · rw [Contour.edgeList_reverse, Contour.edgeList_rotate]
    simp only [List.mem_reverse, List.mem_map, List.mem_rotate, exists_exists_and_eq_and,
      Segment.pts_reverse]

/-- C09: rotating or reversing the vertices and reversing the segment change nothing. -/
theorem C09_representation {context : Context K} (hc : context.Exact) {s s' : Segment K}
    (hs : s.Nondegenerate) (hs' : s' = s ∨ s' = s.reverse) {c d : Contour K} (h : c.Simple)
    (hd : d.SameCycle c) :
    planar.segmentInContour s' d context = planar.segmentInContour s c context := by
  have hsn : s'.Nondegenerate := by
    rcases hs' with rfl | rfl
    · exact hs
    · exact hs.reverse
  have hpts : s'.pts = s.pts := by
    rcases hs' with rfl | rfl
    · rfl
    · exact pts_reverse _
  have hcr : ∀ M, s'.CrossedBy M ↔ s.CrossedBy M := by
    rcases hs' with rfl | rfl
    · exact fun _ => Iff.rfl
    · exact crossedBy_reverse _
  obtain ⟨r, e, hr⟩ := segmentInContour_spec hc hs h
  rw [e, C08_segment_in_contour hc hsn (h.of_sameCycle hd)]
  have he := sameCycle_edges hd (P := fun T => s.pts ⊆ T)
  cases r <;> simp only [ContourRel, hpts, hcr, hd.pts, he] at hr ⊢ <;> exact hr

/-- A contour without straight angles contains a segment only if an edge does. -/
theorem subset_edge_of_strictCorners {s : Segment K} (hs : s.Nondegenerate) {c : Contour K}
    (h : c.Simple) (hc : c.StrictCorners) (hsub : s.pts ⊆ c.pts) :
    ∃ e ∈ c.edgeList, s.pts ⊆ e.pts := by
  obtain ⟨t, ht, b, hb, hbs, hst, hbt⟩ := exists_germ_of_subset (p := s.start) (a := s.finish) hs hsub
  refine ⟨t, ht, ?_⟩
  by_contra hns
  have htn := h.nondegenerate ht
  have hcol : s.Collinear t :=
    collinear_of_nontrivial htn ⟨b, ⟨hbs, hbt⟩, s.start, ⟨s.start_mem, hst⟩, hb⟩
  have hcol' := hcol.symm hs htn
  obtain ⟨v, w, hvt, hvw, hvs, hws, hon⟩ : ∃ v w, t.IsEndpoint v ∧ v ≠ w ∧ v ∈ s.pts ∧ w ∈ s.pts ∧
      ∀ b ∈ (⟨v, w⟩ : Segment K).pts, b ∈ t.pts → b = v := by
    have h1 : s.lo ≤ t.hi := (lo_le s.start_mem).trans (le_hi hst)
    have h2 : t.lo ≤ s.hi := (lo_le hst).trans (le_hi s.start_mem)
    by_cases hlo : t.lo ≤ s.lo
    · by_cases hhi : s.hi ≤ t.hi
      · exfalso
        apply hns
        intro q hq
        rw [hcol.mem_iff hs htn]
        exact ⟨cross_eq_zero hq, hlo.trans (lo_le hq), (le_hi hq).trans hhi⟩
      · push Not at hhi
        refine ⟨t.hi, s.hi, (isEndpoint_iff _ _).mpr (.inr rfl), hhi.ne, ?_, s.hi_mem, ?_⟩
        · rw [hcol'.mem_iff htn hs]
          exact ⟨cross_eq_zero t.hi_mem, h1, hhi.le⟩
        · intro b hb hbt
          apply le_antisymm (le_hi hbt)
          have := lo_le hb
          rwa [lo, min_eq_left hhi.le] at this
    · push Not at hlo
      refine ⟨t.lo, s.lo, (isEndpoint_iff _ _).mpr (.inl rfl), hlo.ne', ?_, s.lo_mem, ?_⟩
      · rw [hcol'.mem_iff htn hs]
        exact ⟨cross_eq_zero t.lo_mem, hlo.le, h2⟩
      · intro b hb hbt
        apply le_antisymm _ (lo_le hbt)
        have := le_hi hb
        rwa [hi, max_eq_left hlo.le] at this
  obtain ⟨t', ht', b', hb', hbs', hvt', hbt'⟩ :=
    exists_germ_of_subset hvw ((pts_subset hvs hws).trans hsub)
  obtain ⟨i, hi⟩ := List.mem_iff_getElem?.mp ht
  obtain ⟨j, hj⟩ := List.mem_iff_getElem?.mp ht'
  have hij : i ≠ j := by
    rintro rfl
    rw [hi] at hj
    cases hj
    exact hb' (hon b' hbs' hbt')
  have hcol2 : s.Collinear t' := collinear_of_nontrivial (h.nondegenerate ht')
    ⟨b', ⟨pts_subset hvs hws hbs', hbt'⟩, v, ⟨hvs, hvt'⟩, hb'⟩
  have hvt2 := (h.meet_getElem hi hj hij hvt.mem hvt').2
  rcases h.next_of_common hi hj hij hvt hvt2 with ⟨-, e1, e2⟩ | ⟨-, e1, e2⟩
  · obtain ⟨p, v1⟩ := t
    obtain ⟨v2, q⟩ := t'
    simp only at e1 e2
    subst e1 e2
    exact hc p v q ht ht' (collinear_trans hs hcol.1 hcol.2 hcol2.2)
  · obtain ⟨p, v1⟩ := t'
    obtain ⟨v2, q⟩ := t
    simp only at e1 e2
    subst e1 e2
    exact hc p v q ht' ht (collinear_trans hs hcol2.1 hcol2.2 hcol.2)

/-- C08: for contours without straight angles COMPONENT means being a subset. -/
theorem C08_component {context : Context K} (hc : context.Exact) {s : Segment K}
    (hs : s.Nondegenerate) {c : Contour K} (h : c.Simple) (hcor : c.StrictCorners) :
    planar.segmentInContour s c context = .ok .component ↔ s.pts ⊆ c.pts := by
  rw [C08_segment_in_contour hc hs h]
  exact ⟨fun ⟨e, he, hse⟩ => hse.trans (subset_segsPts he),
    subset_edge_of_strictCorners hs h hcor⟩

/-- A square with segments in every relation to it; the crossing segments pass through vertices at
the beginning, in the middle and at the end of the list. -/
example : let c : Contour ℚ := ⟨[⟨0, 0⟩, ⟨2, 0⟩, ⟨2, 2⟩, ⟨0, 2⟩]⟩
    c.Simple ∧ c.StrictCorners ∧
    planar.segmentInContour ⟨⟨-1, -1⟩, ⟨1, 1⟩⟩ c (reference.context : Context ℚ) = .ok .cross ∧
    planar.segmentInContour ⟨⟨1, 1⟩, ⟨3, 3⟩⟩ c (reference.context : Context ℚ) = .ok .cross ∧
    planar.segmentInContour ⟨⟨-1, 3⟩, ⟨1, 1⟩⟩ c (reference.context : Context ℚ) = .ok .cross ∧
    planar.segmentInContour ⟨⟨-1, 1⟩, ⟨1, -1⟩⟩ c (reference.context : Context ℚ) = .ok .touch ∧
    planar.segmentInContour ⟨⟨0, 0⟩, ⟨2, 2⟩⟩ c (reference.context : Context ℚ) = .ok .touch ∧
    planar.segmentInContour ⟨⟨0, 0⟩, ⟨1, 0⟩⟩ c (reference.context : Context ℚ) = .ok .component ∧
    planar.segmentInContour ⟨⟨3, 0⟩, ⟨1, 0⟩⟩ c (reference.context : Context ℚ) = .ok .overlap ∧
    planar.segmentInContour ⟨⟨3, 0⟩, ⟨3, 1⟩⟩ c (reference.context : Context ℚ) = .ok .disjoint := by
  refine ⟨Contour.simple_of_check (by decide +kernel), ?_, ?_⟩
  · have key : ∀ e ∈ (⟨[⟨0, 0⟩, ⟨2, 0⟩, ⟨2, 2⟩, ⟨0, 2⟩]⟩ : Contour ℚ).edgeList,
        ∀ f ∈ (⟨[⟨0, 0⟩, ⟨2, 0⟩, ⟨2, 2⟩, ⟨0, 2⟩]⟩ : Contour ℚ).edgeList,
        e.finish = f.start → cross e.start e.finish f.finish ≠ 0 := by decide +kernel
    exact fun p v q hp hq => key _ hp _ hq rfl
  · decide +kernel

end Orient.Props
