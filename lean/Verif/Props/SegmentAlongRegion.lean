import Verif.Lemmas.AlongTests
import Verif.Props.SegmentBesideRegion
import Verif.Props.ContourRelations

/-! C66: `segment_in_region` for segments which may run along edges. -/

set_option linter.unusedSectionVars false

namespace Orient.Props

variable {K : Type} [Field K] [LinearOrder K] [IsStrictOrderedRing K]

open Segment

/-- C66: `segment_in_region` always gives an answer, which is one of six. -/
theorem C66_always_answers {context : Context K} (hc : context.Exact) {s : Segment K} (hs : s.Nondegenerate)
    {c : Contour K} (h : c.Simple) :
    ∃ r, planar.segmentInRegion s c context = .ok r ∧
      (r = .disjoint ∨ r = .touch ∨ r = .cross ∨ r = .component ∨ r = .enclosed ∨ r = .within) := by
  obtain ⟨r, hr, hrel⟩ := region.relateSegmentToContour_spec hc hs h
  unfold planar.segmentInRegion region.relateSegment
  simp only [hr, bind, Except.bind, pure, Except.pure]
  by_cases h1 : r = .cross ∨ r = .component
  · rw [if_pos h1]
    exact ⟨r, rfl, by tauto⟩
  rw [if_neg h1]
  by_cases h2 : r = .disjoint
  · rw [if_pos h2]
    exact ⟨_, rfl, by split_ifs <;> simp⟩
  rw [if_neg h2]
  split_ifs with s1 s2 f1 f2
  · exact ⟨_, rfl, by simp⟩
  · exact ⟨_, rfl, by simp⟩
  · exact ⟨_, rfl, by simp⟩
  · exact ⟨_, rfl, by simp⟩
  have loc : ∀ p, (region.locatePointIndexed c p context).2 ≠ .exterior →
      (region.locatePointIndexed c p context).2 ≠ .interior → p ∈ c.pts := by
    intro p h1 h2
    have := (C10_point_in_region_unique hc p c .boundary).mp
    refine this ?_
    change (region.locatePointIndexed c p context).2 = .boundary
    cases h' : (region.locatePointIndexed c p context).2 <;> first | rfl | (exfalso; simp_all; done)
  obtain ⟨i, e, hi, he, hpe⟩ := locateLoop_index hc s.start c.edgeList 0 false (loc _ s1 s2)
  obtain ⟨j, f, hj, hf, hpf⟩ := locateLoop_index hc s.finish c.edgeList 0 false (loc _ f1 f2)
  have hi : region.locatePointIndexed c s.start context = (some (i : Int), .boundary) := by
    unfold region.locatePointIndexed
    rw [hc.contourSegments]
    simpa using hi
  have hj : region.locatePointIndexed c s.finish context = (some (j : Int), .boundary) := by
    unfold region.locatePointIndexed
    rw [hc.contourSegments]
    simpa using hj
  simp only [hi, hj]
  obtain ⟨p, v, q, hl, hn⟩ := h.leastCorner
  simp only [contour.orientation_eq context h.nodup hl]
  obtain ⟨b, hb⟩ := touchesAtStart_total context (context.angleOrientation p v q) h.three he s.start s.finish
  obtain ⟨b', hb'⟩ := touchesAtEnd_total context (context.angleOrientation p v q) h.three hf s.start s.finish
  simp only [hb, hb']
  cases b
  · cases b'
    · exact ⟨.enclosed, by simp, by simp⟩
    · exact ⟨.touch, by simp, by simp⟩
  · exact ⟨.touch, by simp, by simp⟩

/-- How the answer comes from the relation to the contour. -/
theorem segmentInRegion_cases {context : Context K} (hc : context.Exact) {s : Segment K} (hs : s.Nondegenerate)
    {c : Contour K} (h : c.Simple) {r : Relation} (hr : planar.segmentInRegion s c context = .ok r) :
    (r = .cross ∧ CrossesEdges c s) ∨ (r = .component ∧ ∃ e ∈ c.edgeList, s.pts ⊆ e.pts) ∨
    (s.pts ∩ c.pts = ∅ ∧ (r = .disjoint ∨ r = .within)) ∨
    ((s.pts ∩ c.pts).Nonempty ∧ ¬ CrossesEdges c s ∧ (¬ ∃ e ∈ c.edgeList, s.pts ⊆ e.pts) ∧
      (r = .touch ∨ r = .enclosed) ∧
      (s.start ∈ c.exterior → r = .touch) ∧ (s.start ∈ c.interior → r = .enclosed) ∧
      (s.start ∈ c.pts → s.finish ∈ c.exterior → r = .touch) ∧
      (s.start ∈ c.pts → s.finish ∈ c.interior → r = .enclosed)) := by
  obtain ⟨r', hr', hrel⟩ := region.relateSegmentToContour_spec hc hs h
  have locs : ∀ p l, (region.locatePointIndexed c p context).2 = l ↔ Locates c p l :=
    fun p l => C10_point_in_region_unique hc p c l
  have all := C66_always_answers hc hs h
  rw [hr] at all
  obtain ⟨r₁, e₁, all⟩ := all
  cases e₁
  unfold planar.segmentInRegion region.relateSegment at hr
  simp only [hr', bind, Except.bind, pure, Except.pure] at hr
  by_cases h1 : r' = .cross
  · subst h1
    simp only [true_or, if_true, Except.ok.injEq] at hr
    exact .inl ⟨hr.symm, hrel⟩
  by_cases h2 : r' = .component
  · subst h2
    simp only [or_true, if_true, Except.ok.injEq] at hr
    exact .inr (.inl ⟨hr.symm, hrel⟩)
  rw [if_neg (by tauto)] at hr
  by_cases h3 : r' = .disjoint
  · subst h3
    rw [if_pos rfl] at hr
    refine .inr (.inr (.inl ⟨hrel, ?_⟩))
    cases hr
    split_ifs <;> simp
  rw [if_neg h3] at hr
  have hne : (s.pts ∩ c.pts).Nonempty ∧ ¬ CrossesEdges c s ∧ ¬ ∃ e ∈ c.edgeList, s.pts ⊆ e.pts := by
    cases r' <;> simp only [RegionContourRel] at hrel
    case disjoint => exact absurd rfl h3
    case touch =>
      exact ⟨hrel.2.2, hrel.2.1, fun ⟨e, he, hse⟩ => hrel.1 ⟨s, hs, le_rfl, hse.trans (subset_segsPts he)⟩⟩
    case overlap => exact ⟨hrel.1.inter_nonempty, hrel.2⟩
    case cross => exact absurd rfl h1
    case component => exact absurd rfl h2
  refine .inr (.inr (.inr ⟨hne.1, hne.2.1, hne.2.2, ?_, ?_, ?_, ?_, ?_⟩))
  · split_ifs at hr
    · cases hr; simp
    · cases hr; simp
    · cases hr; simp
    · cases hr; simp
    · split at hr
      · cases hs : contour.orientation c context with
        | error e => rw [hs] at hr; cases hr
        | ok o =>
          simp only [hs] at hr
          split at hr
          · cases hr
          · split_ifs at hr
            · cases hr; simp
            · split at hr
              · cases hr
              · split_ifs at hr <;> cases hr <;> simp
      · cases hr
  · intro hx
    rw [if_pos ((locs s.start .exterior).mpr hx)] at hr
    cases hr; rfl
  · intro hx
    have := (locs s.start .interior).mpr hx
    rw [if_neg (by rw [this]; simp), if_pos this] at hr
    cases hr; rfl
  · intro h0 hx
    have e0 := (locs s.start .boundary).mpr h0
    rw [if_neg (by rw [e0]; simp), if_neg (by rw [e0]; simp), if_pos ((locs s.finish .exterior).mpr hx)] at hr
    cases hr; rfl
  · intro h0 hx
    have e0 := (locs s.start .boundary).mpr h0
    have := (locs s.finish .interior).mpr hx
    rw [if_neg (by rw [e0]; simp), if_neg (by rw [e0]; simp), if_neg (by rw [this]; simp), if_pos this] at hr
    cases hr; rfl

/-- C66: the answer is `CROSS` exactly if the segment crosses an edge at an inner point of both, or goes
through a vertex between the two edges which meet there. -/
theorem C66_cross {context : Context K} (hc : context.Exact) {s : Segment K} (hs : s.Nondegenerate)
    {c : Contour K} (h : c.Simple) :
    planar.segmentInRegion s c context = .ok .cross ↔
      (∃ e ∈ c.edgeList, ∃ p, s.pts ∩ e.pts = {p} ∧ ¬ s.IsEndpoint p ∧ ¬ e.IsEndpoint p) ∨
      ∃ a w b, ⟨a, w⟩ ∈ c.edgeList ∧ ⟨w, b⟩ ∈ c.edgeList ∧ w ∈ s.pts ∧ ¬ s.IsEndpoint w ∧
        cross s.start s.finish a * cross s.start s.finish b < 0 := by
  change _ ↔ CrossesEdges c s
  constructor
  · intro hr
    rcases segmentInRegion_cases hc hs h hr with h' | h' | ⟨-, h' | h'⟩ | ⟨-, -, -, h' | h', -⟩
    · exact h'.2
    · cases h'.1
    all_goals cases h'
  · intro hX
    obtain ⟨r, hr, hrel⟩ := region.relateSegmentToContour_spec hc hs h
    obtain rfl := hrel.unique hs h (r' := .cross) hX
    unfold planar.segmentInRegion region.relateSegment
    simp only [hr, bind, Except.bind, pure, Except.pure, true_or, if_true]

/-- C66: the answer `CROSS` is right. -/
theorem C66_cross_right {context : Context K} (hc : context.Exact) {s : Segment K} (hs : s.Nondegenerate)
    {c : Contour K} (h : c.Simple) (hr : planar.segmentInRegion s c context = .ok .cross) :
    SegmentRegionRel s c .cross :=
  h.crosses_edges hs ((C66_cross hc hs h).mp hr)

/-- C66: the answer is `COMPONENT` exactly if the segment is a part of a single edge. -/
theorem C66_component {context : Context K} (hc : context.Exact) {s : Segment K} (hs : s.Nondegenerate)
    {c : Contour K} (h : c.Simple) :
    planar.segmentInRegion s c context = .ok .component ↔ ∃ e ∈ c.edgeList, s.pts ⊆ e.pts := by
  constructor
  · intro hr
    rcases segmentInRegion_cases hc hs h hr with h' | h' | ⟨-, h' | h'⟩ | ⟨-, -, -, h' | h', -⟩
    · cases h'.1
    · exact h'.2
    all_goals cases h'
  · intro hX
    obtain ⟨r, hr, hrel⟩ := region.relateSegmentToContour_spec hc hs h
    obtain rfl := hrel.unique hs h (r' := .component) hX
    unfold planar.segmentInRegion region.relateSegment
    simp only [hr, bind, Except.bind, pure, Except.pure, or_true, if_true]

/-- C66: the answer `COMPONENT` is right. -/
theorem C66_component_right {context : Context K} (hc : context.Exact) {s : Segment K} (hs : s.Nondegenerate)
    {c : Contour K} (h : c.Simple) (hr : planar.segmentInRegion s c context = .ok .component) :
    SegmentRegionRel s c .component := by
  obtain ⟨e, he, hse⟩ := (C66_component hc hs h).mp hr
  exact hse.trans (subset_segsPts he)

/-- C66: if no vertex lies on the line of its neighbours, then the answer is `COMPONENT` exactly if all
points of the segment are on the contour. -/
theorem C66_component_iff {context : Context K} (hc : context.Exact) {s : Segment K} (hs : s.Nondegenerate)
    {c : Contour K} (h : c.Simple)
    (hflat : ∀ a w b, ⟨a, w⟩ ∈ c.edgeList → ⟨w, b⟩ ∈ c.edgeList → cross a w b ≠ 0) :
    planar.segmentInRegion s c context = .ok .component ↔ SegmentRegionRel s c .component :=
  ⟨C66_component_right hc hs h, fun hr => (C66_component hc hs h).mpr (h.subset_edge hflat hs hr)⟩

/-- C66: the answer is `DISJOINT` exactly if the segment lies in the exterior, and `WITHIN` exactly if it lies
in the interior. -/
theorem C66_disjoint_within {context : Context K} (hc : context.Exact) {s : Segment K} (hs : s.Nondegenerate)
    {c : Contour K} (h : c.Simple) :
    (planar.segmentInRegion s c context = .ok .disjoint ↔ SegmentRegionRel s c .disjoint) ∧
    (planar.segmentInRegion s c context = .ok .within ↔ SegmentRegionRel s c .within) := by
  have off : s.pts ∩ c.pts = ∅ → ¬ SharesPiece s.pts c.pts ∧ s.start ∉ c.pts := fun h0 =>
    ⟨fun hp => hp.inter_nonempty.ne_empty h0, fun hx => Set.eq_empty_iff_forall_notMem.mp h0 _ ⟨start_mem s, hx⟩⟩
  have key : s.pts ∩ c.pts = ∅ → ∀ r, planar.segmentInRegion s c context = .ok r ↔ SegmentRegionRel s c r :=
    fun h0 r => C43_segment_in_region_iff hc hs h (off h0).1 (.inr (.inl (off h0).2)) r
  refine ⟨⟨fun hr => ?_, fun hr => ?_⟩, ⟨fun hr => ?_, fun hr => ?_⟩⟩
  · rcases segmentInRegion_cases hc hs h hr with h' | h' | ⟨h0, -⟩ | ⟨-, -, -, h' | h', -⟩
    · cases h'.1
    · cases h'.1
    · exact (key h0 _).mp hr
    all_goals cases h'
  · refine (key (Set.eq_empty_iff_forall_notMem.mpr fun x hx => ?_) _).mpr hr
    exact (show x ∈ c.exterior from hr hx.1).1 hx.2
  · rcases segmentInRegion_cases hc hs h hr with h' | h' | ⟨h0, -⟩ | ⟨-, -, -, h' | h', -⟩
    · cases h'.1
    · cases h'.1
    · exact (key h0 _).mp hr
    all_goals cases h'
  · refine (key (Set.eq_empty_iff_forall_notMem.mpr fun x hx => ?_) _).mpr hr
    exact (show x ∈ c.interior from hr hx.1).1 hx.2

/-- C66: if an endpoint of the segment is off the contour, or the segment does not run along an edge at its
end (and the contour is counterclockwise or the endpoints are not vertices), then the answer is right, except
that a segment which has common pieces with the contour and meets both the interior and the exterior may be
said to `TOUCH` or to be `ENCLOSED`. -/
theorem C66_right {context : Context K} (hc : context.Exact) {s : Segment K} (hs : s.Nondegenerate)
    {c : Contour K} (h : c.Simple)
    (hside : s.start ∉ c.pts ∨ s.finish ∉ c.pts ∨
      (∀ e ∈ c.edgeList, s.finish ∈ e.pts → (s.pts ∩ e.pts).Subsingleton) ∧
        (Counterclockwise c ∨ (s.start ∉ c.vertices ∧ s.finish ∉ c.vertices))) :
    ∃ r, planar.segmentInRegion s c context = .ok r ∧ (SegmentRegionRel s c r ∨
      SegmentRegionRel s c .cross ∧ SharesPiece s.pts c.pts ∧ (r = .touch ∨ r = .enclosed)) := by
  by_cases hno : SharesPiece s.pts c.pts
  swap
  · obtain ⟨r, hr, hrel⟩ := C43_segment_in_region hc hs h hno (by tauto)
    exact ⟨r, hr, .inl hrel⟩
  obtain ⟨r, hr, all⟩ := C66_always_answers hc hs h
  refine ⟨r, hr, ?_⟩
  have hcases := segmentInRegion_cases hc hs h hr
  rcases hcases with ⟨rfl, h'⟩ | ⟨rfl, e, he, hse⟩ | ⟨h0, -⟩ | ⟨hne, hnX, hnsub, hr2, c1, c2, c3, c4⟩
  · exact .inl (h.crosses_edges hs h')
  · exact .inl (hse.trans (subset_segsPts he))
  · exact absurd h0 hno.inter_nonempty.ne_empty
  have ins : ∀ {x}, x ∈ s.pts → x ∈ c.interior → r = .enclosed →
      (SegmentRegionRel s c r ∨ SegmentRegionRel s c .cross ∧ SharesPiece s.pts c.pts ∧ (r = .touch ∨ r = .enclosed)) := by
    rintro x hx hi rfl
    by_cases hE : (s.pts ∩ c.exterior).Nonempty
    · exact .inr ⟨⟨⟨x, hx, hi⟩, hE⟩, hno, hr2⟩
    · exact .inl ⟨Set.not_nonempty_iff_eq_empty.mp hE, ⟨x, hx, hi⟩, hne⟩
  have outs : ∀ {x}, x ∈ s.pts → x ∈ c.exterior → r = .touch →
      (SegmentRegionRel s c r ∨ SegmentRegionRel s c .cross ∧ SharesPiece s.pts c.pts ∧ (r = .touch ∨ r = .enclosed)) := by
    rintro x hx hi rfl
    by_cases hE : (s.pts ∩ c.interior).Nonempty
    · exact .inr ⟨⟨hE, ⟨x, hx, hi⟩⟩, hno, hr2⟩
    · exact .inl ⟨Set.not_nonempty_iff_eq_empty.mp hE, ⟨x, hx, hi⟩, hne⟩
  by_cases s3 : s.start ∈ c.pts
  swap
  · rcases Contour.cover s3 with hi | hi
    · exact ins (start_mem s) hi (c2 hi)
    · exact outs (start_mem s) hi (c1 hi)
  by_cases f3 : s.finish ∈ c.pts
  swap
  · rcases Contour.cover f3 with hi | hi
    · exact ins (finish_mem s) hi (c4 s3 hi)
    · exact outs (finish_mem s) hi (c3 s3 hi)
  obtain ⟨hlast, hside⟩ := (hside.resolve_left (not_not.mpr s3)).resolve_left (not_not.mpr f3)
  have locs : ∀ p l, (region.locatePointIndexed c p context).2 = l ↔ Locates c p l :=
    fun p l => C10_point_in_region_unique hc p c l
  obtain ⟨i, e, hi, he, hpe⟩ := locateLoop_index hc s.start c.edgeList 0 false s3
  obtain ⟨j, f, hj, hf, hpf⟩ := locateLoop_index hc s.finish c.edgeList 0 false f3
  have hi : region.locatePointIndexed c s.start context = (some (i : Int), .boundary) := by
    unfold region.locatePointIndexed
    rw [hc.contourSegments]
    simpa using hi
  have hj : region.locatePointIndexed c s.finish context = (some (j : Int), .boundary) := by
    unfold region.locatePointIndexed
    rw [hc.contourSegments]
    simpa using hj
  obtain ⟨p, v, q, hl, hn, hside⟩ : ∃ p v q, c.LeastCorner p v q ∧ cross p v q ≠ 0 ∧
      (0 < cross p v q ∨ (s.start ∉ c.vertices ∧ s.finish ∉ c.vertices)) := by
    rcases hside with ⟨p, v, q, hl, h⟩ | h'
    · exact ⟨p, v, q, hl, h.ne', .inl h⟩
    · obtain ⟨p, v, q, hl, hn⟩ := h.leastCorner
      exact ⟨p, v, q, hl, hn, .inr h'⟩
  have notEnd : ∀ {x : Point K} {k : Nat} {e : Segment K}, c.edgeList[k]? = some e → x ∉ c.vertices →
      ¬ e.IsEndpoint x := by
    intro x k e he hx hend
    have h2 : 2 ≤ c.vertices.length := by have := h.three; omega
    have hk : k < c.vertices.length := by
      rw [← Contour.length_edgeList]; exact (List.getElem?_eq_some_iff.mp he).1
    obtain ⟨k', hk'⟩ := c.exists_prev hk
    rcases hend with rfl | rfl
    · exact hx (List.mem_of_getElem? (Contour.edge_start c h2 hk' he))
    · exact hx (List.mem_of_getElem? (Contour.edge_finish c he))
  -- what is seen from the end
  obtain ⟨δ, d0, hδ⟩ := exists_seen_near (s := s.reverse) (Ne.symm hs) (c := c) (t := 0) le_rfl zero_le_one (by
    intro e he hpe
    rw [lerp_zero] at hpe
    rw [Segment.pts_reverse]
    exact hlast e he hpe)
  set u := min δ 1 with hu
  have u0 : 0 < u := lt_min d0 one_pos
  have u1 : u ≤ 1 := min_le_right _ _
  have hu := hδ u u0.le u1 (by rw [sub_zero, abs_of_pos u0]; exact min_le_left _ _)
  rw [lerp_zero] at hu
  change Seen c s.finish (lerp s.finish s.start u) at hu
  obtain ⟨b', hb2, hb2'⟩ := touchesAtEnd_spec hc h hl hn hf hpf (Ne.symm hs) u0 hu
    (hside.imp_right fun h => notEnd hf h.2)
  have m2 : lerp s.finish s.start u ∈ s.pts := by
    rw [← Segment.pts_reverse]; exact ⟨u, u0.le, u1, rfl⟩
  have o2 : lerp s.finish s.start u ∉ c.pts := hu _ (finish_mem _) fun h =>
    u0.ne (lerp_injective (Ne.symm hs) ((lerp_zero _ _).trans h.symm))
  -- what the test at the start says
  obtain ⟨b, hb, hb'⟩ : ∃ b, region.touchesAtStart context c.vertices (context.angleOrientation p v q) i s.start
      s.finish = .ok b ∧ (b = true → ∃ x ∈ s.pts, x ∈ c.exterior) := by
    by_cases halong : ∀ g ∈ c.edgeList, s.start ∈ g.pts → (s.pts ∩ g.pts).Subsingleton
    · obtain ⟨δ, d0, hδ⟩ := exists_seen_near hs (c := c) (t := 0) le_rfl zero_le_one
        (by rw [lerp_zero]; exact halong)
      have t0 : 0 < min δ 1 := lt_min d0 one_pos
      have t1 : min δ 1 ≤ 1 := min_le_right _ _
      have ht := hδ (min δ 1) t0.le t1 (by rw [sub_zero, abs_of_pos t0]; exact min_le_left _ _)
      rw [lerp_zero] at ht
      obtain ⟨b, hb, hb'⟩ := touchesAtStart_spec hc h hl hn he hpe hs t0 ht
        (hside.imp_right fun h => notEnd he h.1)
      have o1 : lerp s.start s.finish (min δ 1) ∉ c.pts := ht _ (finish_mem _) fun h =>
        t0.ne (lerp_injective hs ((lerp_zero _ _).trans h.symm))
      exact ⟨b, hb, fun hbt => ⟨_, ⟨_, t0.le, t1, rfl⟩, (Contour.cover o1).resolve_left (hb' hbt)⟩⟩
    · push Not at halong
      obtain ⟨g, hg, hwg, hnt⟩ := halong
      refine ⟨false, touchesAtStart_along hc h hn he hpe hs hg hwg (Set.not_subsingleton_iff.mp ?_)
        (hside.imp_right fun h => notEnd he h.1), by simp⟩
      first | exact hnt | exact Set.not_subsingleton_iff.mpr hnt
  obtain ⟨r', hr', hrel⟩ := region.relateSegmentToContour_spec hc hs h
  have ho : r' = .overlap := hrel.unique hs h ⟨hno, hnX, hnsub⟩
  subst ho
  unfold planar.segmentInRegion region.relateSegment at hr
  simp only [hr', hi, hj, bind, Except.bind, pure, Except.pure, reduceCtorEq, or_self, if_false,
    contour.orientation_eq context h.nodup hl, hb, hb2] at hr
  cases b with
  | true =>
    obtain ⟨x, hx, hxe⟩ := hb' rfl
    refine outs hx hxe ?_
    simp at hr
    exact hr.symm
  | false =>
    cases b' with
    | true =>
      refine outs m2 ((Contour.cover o2).resolve_left (hb2'.mp rfl)) ?_
      simp at hr
      exact hr.symm
    | false =>
      refine ins m2 ?_ ?_
      · by_contra h'
        exact absurd (hb2'.mpr h') (by simp)
      · simp at hr
        exact hr.symm

/-- C66: in particular the answer is right for segments which do not meet both the interior and the exterior. -/
theorem C66_one_side {context : Context K} (hc : context.Exact) {s : Segment K} (hs : s.Nondegenerate)
    {c : Contour K} (h : c.Simple)
    (hside : s.start ∉ c.pts ∨ s.finish ∉ c.pts ∨
      (∀ e ∈ c.edgeList, s.finish ∈ e.pts → (s.pts ∩ e.pts).Subsingleton) ∧
        (Counterclockwise c ∨ (s.start ∉ c.vertices ∧ s.finish ∉ c.vertices)))
    (hone : s.pts ∩ c.interior = ∅ ∨ s.pts ∩ c.exterior = ∅) (r : Relation) :
    planar.segmentInRegion s c context = .ok r ↔ SegmentRegionRel s c r := by
  obtain ⟨r', hr', h'⟩ := C66_right hc hs h hside
  have h' : SegmentRegionRel s c r' := by
    rcases h' with h' | ⟨⟨h1, h2⟩, -⟩
    · exact h'
    · rcases hone with h0 | h0
      · exact absurd h0 h1.ne_empty
      · exact absurd h0 h2.ne_empty
  rw [hr']
  constructor
  · intro h; cases h; exact h'
  · intro h
    rw [LinearCompoundRel.unique ⟨_, s.start_mem⟩ c.interior_pts c.interior_exterior c.exterior_pts h' h]

/-- C66: the same for `segment_in_polygon` and polygons whose holes do not touch the border and touch each
other only in vertices. -/
theorem C66_segment_in_polygon {context : Context K} (hc : context.Exact) {s : Segment K} {g : Polygon K}
    (hs : s.Nondegenerate) (hg : g.Valid)
    (hside : s.start ∉ g.border.pts ∨ s.finish ∉ g.border.pts ∨
      (∀ e ∈ g.border.edgeList, s.finish ∈ e.pts → (s.pts ∩ e.pts).Subsingleton) ∧
        (Counterclockwise g.border ∨ (s.start ∉ g.border.vertices ∧ s.finish ∉ g.border.vertices)))
    (hone : s.pts ∩ g.border.interior = ∅ ∨ s.pts ∩ g.border.exterior = ∅)
    (hneat : Neat (g.holes.flatMap Contour.edgeList)) (hoff : g.border.pts ∩ Multiregion.pts g.holes = ∅) :
    ∃ r, planar.segmentInPolygon s g context = .ok r ∧
      LinearCompoundRel s.pts g.interior g.pts g.exterior r := by
  obtain ⟨r, hr, -⟩ := C66_always_answers hc hs hg.border
  have h := (C66_one_side hc hs hg.border hside hone r).mp hr
  obtain ⟨q, hq, h⟩ := C26_segment_in_polygon hc hs hg hr h
  refine ⟨q, hq, ?_⟩
  rcases h with h | ⟨-, h | h, -⟩ | ⟨-, h, -⟩
  · exact h
  · exact absurd hoff h
  · exact absurd hneat h
  · exact absurd hoff h

/-! ### cases -/

/-- A contour with a reflex vertex between two edges which are perpendicular. -/
def exampleStep : Contour ℚ := ⟨[⟨0, 0⟩, ⟨4, 0⟩, ⟨4, 2⟩, ⟨2, 2⟩, ⟨2, 4⟩, ⟨0, 4⟩]⟩

theorem exampleStep_simple : exampleStep.Simple := Contour.simple_of_check (by decide +kernel)

theorem exampleStep_ccw : Counterclockwise exampleStep :=
  ⟨⟨0, 4⟩, ⟨0, 0⟩, ⟨4, 0⟩, ⟨5, [⟨4, 2⟩, ⟨2, 2⟩, ⟨2, 4⟩], by decide +kernel, by decide +kernel⟩, by decide +kernel⟩

theorem pts_subset_split (s : Segment K) {m : Point K} (hm : m ∈ s.pts) :
    s.pts ⊆ (⟨s.start, m⟩ : Segment K).pts ∪ (⟨m, s.finish⟩ : Segment K).pts := by
  obtain ⟨t, t0, t1, rfl⟩ := hm
  rintro x ⟨u, u0, u1, rfl⟩
  rcases le_or_gt u t with h | h
  · left
    rcases t0.eq_or_lt with rfl | t0
    · have : u = 0 := le_antisymm h u0
      subst this
      rw [lerp_zero]
      exact start_mem _
    · refine ⟨u / t, by positivity, by rw [div_le_one t0]; exact h, ?_⟩
      have := lerp_lerp s.start s.finish 0 t (u / t)
      rw [lerp_zero] at this
      simp only
      rw [this]
      congr 1
      field_simp
      ring
  · right
    have h1 : 0 < 1 - t := by linarith
    refine ⟨(u - t) / (1 - t), div_nonneg (by linarith) h1.le, by rw [div_le_one h1]; linarith, ?_⟩
    have := lerp_lerp s.start s.finish t 1 ((u - t) / (1 - t))
    rw [lerp_one] at this
    simp only
    rw [this]
    congr 1
    field_simp
    ring

theorem exampleStep_inside : (⟨⟨3, 2⟩, ⟨1, 2⟩⟩ : Segment ℚ).pts ∩ exampleStep.exterior = ∅ ∧
    (⟨⟨3, 2⟩, ⟨0, 2⟩⟩ : Segment ℚ).pts ∩ exampleStep.exterior = ∅ := by
  have first : (⟨⟨3, 2⟩, ⟨2, 2⟩⟩ : Segment ℚ).pts ∩ exampleStep.exterior = ∅ := by
    have := C66_component_right reference.context_exact (s := ⟨⟨3, 2⟩, ⟨2, 2⟩⟩)
      (by unfold Segment.Nondegenerate; decide +kernel) exampleStep_simple (by decide +kernel)
    exact Set.eq_empty_iff_forall_notMem.mpr fun x hx => hx.2.1 (this hx.1)
  have second : ∀ k : Point ℚ, SegmentRegionRel ⟨⟨2, 2⟩, k⟩ exampleStep .enclosed →
      (⟨2, 2⟩ : Point ℚ) ∈ (⟨⟨3, 2⟩, k⟩ : Segment ℚ).pts →
      (⟨⟨3, 2⟩, k⟩ : Segment ℚ).pts ∩ exampleStep.exterior = ∅ := by
    intro k hk hm
    refine Set.eq_empty_iff_forall_notMem.mpr fun x hx => ?_
    rcases pts_subset_split _ hm hx.1 with h | h
    · exact Set.eq_empty_iff_forall_notMem.mp first x ⟨h, hx.2⟩
    · exact Set.eq_empty_iff_forall_notMem.mp hk.1 x ⟨h, hx.2⟩
  refine ⟨second ⟨1, 2⟩ ?_ ⟨1/2, by decide +kernel, by decide +kernel, by decide +kernel⟩,
    second ⟨0, 2⟩ ?_ ⟨1/3, by decide +kernel, by decide +kernel, by decide +kernel⟩⟩ <;>
    exact (C43_segment_in_region_iff reference.context_exact
      (by unfold Segment.Nondegenerate; decide +kernel) exampleStep_simple
      (not_sharesPiece_of_check (by decide +kernel)) (.inl exampleStep_ccw) _).mp (by decide +kernel)

/-- A segment which begins along an edge and ends in the interior. -/
example : planar.segmentInRegion ⟨⟨3, 2⟩, ⟨1, 2⟩⟩ exampleStep (reference.context : Context ℚ) = .ok .enclosed ∧
    SegmentRegionRel ⟨⟨3, 2⟩, ⟨1, 2⟩⟩ exampleStep .enclosed :=
  ⟨by decide +kernel, (C66_one_side reference.context_exact (by unfold Segment.Nondegenerate; decide +kernel)
    exampleStep_simple (.inr (.inl (mem_interior (by decide +kernel)).1)) (.inr exampleStep_inside.1) _).mp
    (by decide +kernel)⟩

/-- A segment which begins along an edge and ends at the contour. -/
example : planar.segmentInRegion ⟨⟨3, 2⟩, ⟨0, 2⟩⟩ exampleStep (reference.context : Context ℚ) = .ok .enclosed ∧
    SegmentRegionRel ⟨⟨3, 2⟩, ⟨0, 2⟩⟩ exampleStep .enclosed := by
  refine ⟨by decide +kernel, (C66_one_side reference.context_exact (by unfold Segment.Nondegenerate; decide +kernel)
    exampleStep_simple (.inr (.inr ⟨?_, .inl exampleStep_ccw⟩)) (.inr exampleStep_inside.2) _).mp
    (by decide +kernel)⟩
  intro e he hf
  by_contra hn
  have hcol := collinear_of_nontrivial (exampleStep_simple.nondegenerate he) (Set.not_subsingleton_iff.mp hn)
  have he' : e ∈ ([⟨⟨0, 4⟩, ⟨0, 0⟩⟩, ⟨⟨0, 0⟩, ⟨4, 0⟩⟩, ⟨⟨4, 0⟩, ⟨4, 2⟩⟩, ⟨⟨4, 2⟩, ⟨2, 2⟩⟩, ⟨⟨2, 2⟩, ⟨2, 4⟩⟩,
    ⟨⟨2, 4⟩, ⟨0, 4⟩⟩] : List (Segment ℚ)) := he
  have hcon := (reference.context_exact.contains e (⟨0, 2⟩ : Point ℚ)).mpr hf
  obtain ⟨h1, h2⟩ := hcol
  simp only [List.mem_cons, List.not_mem_nil, or_false] at he'
  rcases he' with rfl | rfl | rfl | rfl | rfl | rfl
  all_goals first
    | (revert h1; decide +kernel)
    | (revert h2; decide +kernel)
    | (revert hcon; decide +kernel)

/-- The same in a polygon with a hole. -/
example : LinearCompoundRel (⟨⟨3, 2⟩, ⟨1, 2⟩⟩ : Segment ℚ).pts
    (⟨exampleStep, [⟨[⟨1, 1⟩, ⟨2, 1⟩, ⟨1, 3/2⟩]⟩]⟩ : Polygon ℚ).interior
    (⟨exampleStep, [⟨[⟨1, 1⟩, ⟨2, 1⟩, ⟨1, 3/2⟩]⟩]⟩ : Polygon ℚ).pts
    (⟨exampleStep, [⟨[⟨1, 1⟩, ⟨2, 1⟩, ⟨1, 3/2⟩]⟩]⟩ : Polygon ℚ).exterior .enclosed := by
  obtain ⟨r, hr, h⟩ := C66_segment_in_polygon reference.context_exact (s := ⟨⟨3, 2⟩, ⟨1, 2⟩⟩)
    (g := ⟨exampleStep, [⟨[⟨1, 1⟩, ⟨2, 1⟩, ⟨1, 3/2⟩]⟩]⟩) (by unfold Segment.Nondegenerate; decide +kernel)
    (Polygon.valid_of_check (by decide +kernel)) (.inr (.inl (mem_interior (by decide +kernel)).1))
    (.inr exampleStep_inside.1) (neat_of_check (by decide +kernel)) (by
      have h : exampleStep.pts ∩ (⟨[⟨1, 1⟩, ⟨2, 1⟩, ⟨1, 3/2⟩]⟩ : Contour ℚ).pts = ∅ :=
        C36_contour_in_contour_sound (r := .disjoint) reference.context_exact exampleStep_simple
          (Contour.simple_of_check (by decide +kernel)) (by simp) (by decide +kernel)
      simpa [Multiregion.pts] using h)
  have : planar.segmentInPolygon ⟨⟨3, 2⟩, ⟨1, 2⟩⟩ ⟨exampleStep, [⟨[⟨1, 1⟩, ⟨2, 1⟩, ⟨1, 3/2⟩]⟩]⟩
    (reference.context : Context ℚ) = .ok .enclosed := by decide +kernel
  rw [this] at hr
  cases hr
  exact h

/-- A segment through a reflex vertex which runs along an edge afterwards is never said to cross, though it
meets both the interior and the exterior: the exception in `C66_right`. -/
example : planar.segmentInRegion ⟨⟨1, 2⟩, ⟨5, 2⟩⟩ exampleStep (reference.context : Context ℚ) = .ok .enclosed ∧
    SegmentRegionRel ⟨⟨1, 2⟩, ⟨5, 2⟩⟩ exampleStep .cross :=
  ⟨by decide +kernel, ⟨⟨⟨1, 2⟩, start_mem _, mem_interior (by decide +kernel)⟩,
    ⟨⟨5, 2⟩, finish_mem _, mem_exterior (by decide +kernel)⟩⟩⟩

/-- Crossings are found although the segment runs along an edge elsewhere. -/
example : SegmentRegionRel ⟨⟨3, 2⟩, ⟨-1, 2⟩⟩ exampleStep .cross :=
  C66_cross_right reference.context_exact (by unfold Segment.Nondegenerate; decide +kernel) exampleStep_simple
    (by decide +kernel)

/-- `C66_component_iff` does not hold for contours with superfluous vertices: C13 fails for a segment which
consists of two edges. -/
theorem C13_counterexample_component :
    ∃ (c : Contour ℚ) (s : Segment ℚ), c.Simple ∧ s.Nondegenerate ∧ SegmentRegionRel s c .component ∧
      planar.segmentInRegion s c reference.context = .ok .enclosed := by
  refine ⟨⟨[⟨0, 0⟩, ⟨2, 0⟩, ⟨4, 0⟩, ⟨4, 4⟩, ⟨0, 4⟩]⟩, ⟨⟨0, 0⟩, ⟨4, 0⟩⟩,
    Contour.simple_of_check (by decide +kernel), by unfold Segment.Nondegenerate; decide +kernel, ?_,
    by decide +kernel⟩
  intro x hx
  rcases pts_subset_split _ (m := ⟨2, 0⟩) ⟨1/2, by decide +kernel, by decide +kernel, by decide +kernel⟩ hx with h | h
  · exact ⟨⟨⟨0, 0⟩, ⟨2, 0⟩⟩, by decide +kernel, h⟩
  · exact ⟨⟨⟨2, 0⟩, ⟨4, 0⟩⟩, by decide +kernel, h⟩

/-- C13 fails for a segment which runs along edges at both its ends: it lies outside in between, but is said to
be `ENCLOSED`. -/
theorem C13_counterexample_bridge :
    ∃ (c : Contour ℚ) (s : Segment ℚ), c.Simple ∧ Counterclockwise c ∧ s.Nondegenerate ∧
      (s.pts ∩ c.exterior).Nonempty ∧ planar.segmentInRegion s c reference.context = .ok .enclosed :=
  ⟨⟨[⟨0, 0⟩, ⟨6, 0⟩, ⟨6, 4⟩, ⟨4, 4⟩, ⟨3, 2⟩, ⟨2, 4⟩, ⟨0, 4⟩]⟩, ⟨⟨1, 4⟩, ⟨5, 4⟩⟩,
    Contour.simple_of_check (by decide +kernel),
    ⟨⟨0, 4⟩, ⟨0, 0⟩, ⟨6, 0⟩, ⟨6, [⟨6, 4⟩, ⟨4, 4⟩, ⟨3, 2⟩, ⟨2, 4⟩], by decide +kernel, by decide +kernel⟩,
      by decide +kernel⟩,
    by unfold Segment.Nondegenerate; decide +kernel,
    ⟨⟨3, 4⟩, ⟨1/2, by decide +kernel, by decide +kernel, by decide +kernel⟩, mem_exterior (by decide +kernel)⟩,
    by decide +kernel⟩

/-- C13 fails for a segment which begins at a reflex vertex of a counterclockwise contour, leads outside and ends
along an edge; with the `elif` of lines 171-174 belonging to the outer `if` (as in lines 205-208) it would be said
to `TOUCH`. -/
theorem C13_counterexample_elif :
    ∃ (c : Contour ℚ) (s : Segment ℚ), c.Simple ∧ Counterclockwise c ∧ s.Nondegenerate ∧
      (s.pts ∩ c.exterior).Nonempty ∧ planar.segmentInRegion s c reference.context = .ok .enclosed ∧
      planar.segmentInRegion s.reverse c reference.context = .ok .touch :=
  ⟨⟨[⟨0, 0⟩, ⟨6, 0⟩, ⟨6, 6⟩, ⟨3, 6⟩, ⟨3, 4⟩, ⟨4, 4⟩, ⟨3, 2⟩, ⟨2, 4⟩, ⟨0, 4⟩]⟩, ⟨⟨3, 2⟩, ⟨3, 5⟩⟩,
    Contour.simple_of_check (by decide +kernel),
    ⟨⟨0, 4⟩, ⟨0, 0⟩, ⟨6, 0⟩, ⟨8, [⟨6, 6⟩, ⟨3, 6⟩, ⟨3, 4⟩, ⟨4, 4⟩, ⟨3, 2⟩, ⟨2, 4⟩], by decide +kernel,
      by decide +kernel⟩, by decide +kernel⟩,
    by unfold Segment.Nondegenerate; decide +kernel,
    ⟨⟨3, 3⟩, ⟨1/3, by decide +kernel, by decide +kernel, by decide +kernel⟩, mem_exterior (by decide +kernel)⟩,
    by decide +kernel, by decide +kernel⟩

end Orient.Props
