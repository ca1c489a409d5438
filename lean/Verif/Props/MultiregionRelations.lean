import Verif.Lemmas.Sweep.Parts
import Verif.Props.MultiCheck
import Mathlib.Algebra.Field.Rat
import Mathlib.Algebra.Order.Ring.Rat

/-! C37, C38, C22: relations with multiregions. -/

set_option linter.unusedSectionVars false

namespace Orient.Props

open eventsQueue State

variable {K : Type} [Field K] [LinearOrder K] [IsStrictOrderedRing K]

/-- A segment which crosses an edge of a multiregion has inner points, and outer points if edges meet
only in common endpoints. -/
theorem multiregion_crossed {m l : Multiregion K} (hm : Multiregion.Valid m) (hl : l.Sublist m)
    {T : List (Segment K)} (vT : ∀ u ∈ T, u.Nondegenerate)
    (h : Crosses (l.flatMap Contour.edgeList) T) :
    (segsPts T ∩ Multiregion.interior m).Nonempty ∧ (segsPts T ∩ Multiregion.pts m).Nonempty ∧
      (Neat (m.flatMap Contour.edgeList) → (segsPts T ∩ Multiregion.exterior m).Nonempty) := by
  obtain ⟨u, hu, v, hv, hs, p, pu, pv⟩ := h
  obtain ⟨c, hc, hv⟩ := List.mem_flatMap.mp hv
  have hc := hl.subset hc
  obtain ⟨L, -, o⟩ := (hm.simple c hc).oriented' reference.context_exact false
  obtain ⟨L', -, o'⟩ := hm.oriented reference.context_exact false
  obtain ⟨⟨x, x1, x2⟩, -⟩ := o.outline.crossed_by (hm.simple c hc).neat (vT u hu) hv hs pu pv
  refine ⟨⟨x, ⟨u, hu, x1⟩, c, hc, x2⟩, ⟨p, ⟨u, hu, pu.1⟩, c, hc, v, hv, pv.1⟩, fun hn => ?_⟩
  obtain ⟨-, ⟨y, y1, y2⟩⟩ := o'.outline.crossed_by hn (vT u hu) (List.mem_flatMap.mpr ⟨c, hc, hv⟩)
    hs pu pv
  exact ⟨y, ⟨u, hu, y1⟩, y2⟩

/-- What is answered about segments and a multiregion. -/
theorem linear_in_multiregion {context : Context K} (hc : context.Exact) {m : Multiregion K}
    (hm : Multiregion.Valid m) {test : List (SegmentEndpoints K)} {T : List (Segment K)}
    (pT : (test.map sorted).Perm (T.map Segment.up)) (ne : ∀ e ∈ test, e.1 ≠ e.2)
    (vT : SegmentsValid T) {testBox : Box K} (hb : IsBoxOf testBox (segsPts T)) :
    ∃ r, (do
        let (_, registered) ← registerParts context.contourBox
          (fun region => Orient.region.toOrientedSegments region context) testBox (.ok test) m true none
        match registered with
        | none => return .disjoint
        | some (maxX, s) => runLinearCompound context s (min testBox.maxX maxX) : Py Relation) = .ok r ∧
      (LinearCompoundRel (segsPts T) (Multiregion.interior m) (Multiregion.pts m)
          (Multiregion.exterior m) r ∨
        (r = .touch ∧ (∃ c ∈ m, Contour.pts c ⊆ segsPts T) ∧ LinearCompoundRel (segsPts T)
          (Multiregion.interior m) (Multiregion.pts m) (Multiregion.exterior m) .cross) ∨
        (r = .cross ∧ ¬ Neat (m.flatMap Contour.edgeList) ∧ LinearCompoundRel (segsPts T)
          (Multiregion.interior m) (Multiregion.pts m) (Multiregion.exterior m) .enclosed)) := by
  obtain ⟨r, hr, h⟩ := (hm.parts hc).linearCompound hc pT ne vT hb
    (Q := LinearCompoundRel (segsPts T) (Multiregion.interior m) (Multiregion.pts m)
      (Multiregion.exterior m) .cross ∨ (¬ Neat (m.flatMap Contour.edgeList) ∧
        LinearCompoundRel (segsPts T) (Multiregion.interior m) (Multiregion.pts m)
          (Multiregion.exterior m) .enclosed)) (by
    intro hX
    obtain ⟨h1, h2, h3⟩ := multiregion_crossed hm (kept_sublist _) vT.1 hX
    by_cases he : (segsPts T ∩ Multiregion.exterior m).Nonempty
    · exact .inl ⟨h1, he⟩
    · exact .inr ⟨fun hn => he (h3 hn), Set.not_nonempty_iff_eq_empty.mp he, h1, h2⟩)
  have e := segsPts_edgesOf m
  unfold edgesOf at e
  rw [e] at h
  refine ⟨r, hr, ?_⟩
  rcases h with h | ⟨h1, h2, h3⟩ | ⟨rfl, h | h⟩
  · exact .inl h
  · exact .inr (.inl ⟨h1, h2, h3⟩)
  · exact .inl h
  · exact .inr (.inr ⟨rfl, h⟩)

/-- C37: `multisegment_in_multiregion` always answers for valid operands, and the answer is the relation
of the multisegment to the interior, the boundary and the exterior, with two exceptions: a multisegment
which contains a whole boundary of a region, inner points and outer points may be answered `TOUCH`
instead of `CROSS`, and if a vertex of a region is in the middle of an edge of another one then a
multisegment without outer points may be answered `CROSS` instead of `ENCLOSED`. -/
theorem C37_multisegment_in_multiregion {context : Context K} (hc : context.Exact) {a : Multisegment K}
    {m : Multiregion K} (ha : a.segments ≠ []) (va : SegmentsValid a.segments)
    (hm : Multiregion.Valid m) :
    ∃ r, planar.multisegmentInMultiregion a m context = .ok r ∧
      (LinearCompoundRel (segsPts a.segments) (Multiregion.interior m) (Multiregion.pts m)
          (Multiregion.exterior m) r ∨
        (r = .touch ∧ (∃ c ∈ m, Contour.pts c ⊆ segsPts a.segments) ∧
          LinearCompoundRel (segsPts a.segments) (Multiregion.interior m) (Multiregion.pts m)
            (Multiregion.exterior m) .cross) ∨
        (r = .cross ∧ ¬ Neat (m.flatMap Contour.edgeList) ∧
          LinearCompoundRel (segsPts a.segments) (Multiregion.interior m) (Multiregion.pts m)
            (Multiregion.exterior m) .enclosed)) := by
  unfold planar.multisegmentInMultiregion multiregion.relateMultisegment
    multiregion.relateMultisegmentBoxed
  refine linear_in_multiregion hc hm (.of_eq ?_) ((matches_segments a).ne va.1) va
    (hc.segmentsBox _ ha)
  unfold multisegment.toSegmentsEndpoints
  rw [List.map_map]
  rfl

theorem segsPts_singleton (s : Segment K) : segsPts [s] = s.pts := by
  ext x; simp [segsPts]

/-- C37: `segment_in_multiregion` always answers for a non-degenerate segment and a valid multiregion,
and the answer is the relation of the segment to the interior, the boundary and the exterior, except
that if a vertex of a region is in the middle of an edge of another one then a segment without outer
points may be answered `CROSS` instead of `ENCLOSED`. -/
theorem C37_segment_in_multiregion {context : Context K} (hc : context.Exact) {a : Segment K}
    {m : Multiregion K} (ha : a.Nondegenerate) (hm : Multiregion.Valid m) :
    ∃ r, planar.segmentInMultiregion a m context = .ok r ∧
      (LinearCompoundRel a.pts (Multiregion.interior m) (Multiregion.pts m)
          (Multiregion.exterior m) r ∨
        (r = .cross ∧ ¬ Neat (m.flatMap Contour.edgeList) ∧
          LinearCompoundRel a.pts (Multiregion.interior m) (Multiregion.pts m)
            (Multiregion.exterior m) .enclosed)) := by
  unfold planar.segmentInMultiregion multiregion.relateSegment multiregion.relateMultisegmentBoxed
  have va : SegmentsValid [a] := ⟨by simpa using ha, List.pairwise_singleton _ _⟩
  obtain ⟨r, hr, h⟩ := linear_in_multiregion hc hm (T := [a])
    (test := multisegment.toSegmentsEndpoints ⟨[a]⟩) (.of_eq rfl) ((matches_segments ⟨[a]⟩).ne va.1) va
    (testBox := context.segmentBox a) (by rw [segsPts_singleton]; exact hc.segmentBox a)
  rw [segsPts_singleton] at h
  refine ⟨r, hr, ?_⟩
  rcases h with h | ⟨-, ⟨c, hcm, hs⟩, -⟩ | h
  · exact .inl h
  · exact absurd hs ((hm.simple c hcm).not_subset_segment ha)
  · exact .inr h

/-- What `contour_in_multiregion` answers, the box of the contour being given. -/
theorem contour_in_multiregion {context : Context K} (hc : context.Exact) {a : Contour K}
    {m : Multiregion K} (ha : a.Simple) (hm : Multiregion.Valid m) :
    ∃ r, multiregion.relateContourBoxed m a (context.contourBox a) context = .ok r ∧
      (LinearCompoundRel a.pts (Multiregion.interior m) (Multiregion.pts m)
          (Multiregion.exterior m) r ∨
        (r = .cross ∧ ¬ Neat (m.flatMap Contour.edgeList) ∧
          LinearCompoundRel a.pts (Multiregion.interior m) (Multiregion.pts m)
            (Multiregion.exterior m) .enclosed)) := by
  unfold multiregion.relateContourBoxed
  obtain ⟨r, hr, h⟩ := linear_in_multiregion hc hm (T := a.edgeList)
    (test := contour.toEdgesEndpoints a) (.of_eq (by
      rw [← toEdgesEndpoints_ofEndpoints, List.map_map]; rfl)) ((matches_edges a).ne ha.valid.1) ha.valid
    (testBox := context.contourBox a) (hc.contourBox a ha.ne_nil)
  refine ⟨r, hr, ?_⟩
  rcases h with h | ⟨-, ⟨c, hcm, hs⟩, ⟨x, x1, x2⟩, -⟩ | h
  · exact .inl h
  · obtain ⟨L, -, o⟩ := hm.oriented hc false
    have e := ha.pts_eq_of_subset (hm.simple c hcm) hs
    refine absurd ?_ (o.outline.interior x2)
    rw [segsPts_edgesOf]
    exact ⟨c, hcm, e ▸ x1⟩
  · exact .inr h

/-- C37: `contour_in_multiregion` always answers for a simple contour and a valid multiregion, and the
answer is the relation of the contour to the interior, the boundary and the exterior, except that if a
vertex of a region is in the middle of an edge of another one then a contour without outer points may be
answered `CROSS` instead of `ENCLOSED`. -/
theorem C37_contour_in_multiregion {context : Context K} (hc : context.Exact) {a : Contour K}
    {m : Multiregion K} (ha : a.Simple) (hm : Multiregion.Valid m) :
    ∃ r, planar.contourInMultiregion a m context = .ok r ∧
      (LinearCompoundRel a.pts (Multiregion.interior m) (Multiregion.pts m)
          (Multiregion.exterior m) r ∨
        (r = .cross ∧ ¬ Neat (m.flatMap Contour.edgeList) ∧
          LinearCompoundRel a.pts (Multiregion.interior m) (Multiregion.pts m)
            (Multiregion.exterior m) .enclosed)) :=
  contour_in_multiregion hc ha hm

/-- The parts of the plane with respect to a multiregion exclude each other. -/
theorem multiregion_apart {m : Multiregion K} (hm : Multiregion.Valid m) :
    Multiregion.interior m ∩ Multiregion.pts m = ∅ ∧
    Multiregion.interior m ∩ Multiregion.exterior m = ∅ ∧
    Multiregion.pts m ∩ Multiregion.exterior m = ∅ := by
  obtain ⟨L, -, o⟩ := hm.oriented reference.context_exact false
  refine ⟨?_, ?_, ?_⟩ <;> refine Set.eq_empty_iff_forall_notMem.mpr ?_
  · rintro x ⟨h1, h2⟩
    exact o.outline.interior h1 (segsPts_edgesOf m ▸ h2)
  · rintro x ⟨h1, h2⟩
    exact o.outline.not_both h1 h2
  · rintro x ⟨h1, h2⟩
    exact o.outline.exterior h2 (segsPts_edgesOf m ▸ h1)

/-- C37: if regions touch each other only at common vertices then the answer of `segment_in_multiregion`
is determined by the relation to the interior, the boundary and the exterior. -/
theorem C37_segment_in_multiregion_iff {context : Context K} (hc : context.Exact) {a : Segment K}
    {m : Multiregion K} (ha : a.Nondegenerate) (hm : Multiregion.Valid m)
    (neat : Neat (m.flatMap Contour.edgeList)) (r : Relation) :
    planar.segmentInMultiregion a m context = .ok r ↔
      LinearCompoundRel a.pts (Multiregion.interior m) (Multiregion.pts m)
        (Multiregion.exterior m) r := by
  obtain ⟨r', hr, h | ⟨-, h, -⟩⟩ := C37_segment_in_multiregion hc ha hm
  · obtain ⟨h1, h2, h3⟩ := multiregion_apart hm
    rw [hr]
    constructor
    · intro e; cases e; exact h
    · intro h'
      rw [LinearCompoundRel.unique ⟨_, a.start_mem⟩ h1 h2 h3 h h']
  · exact absurd neat h

/-- C37: if regions touch each other only at common vertices then the answer of `contour_in_multiregion`
is determined by the relation to the interior, the boundary and the exterior. -/
theorem C37_contour_in_multiregion_iff {context : Context K} (hc : context.Exact) {a : Contour K}
    {m : Multiregion K} (ha : a.Simple) (hm : Multiregion.Valid m)
    (neat : Neat (m.flatMap Contour.edgeList)) (r : Relation) :
    planar.contourInMultiregion a m context = .ok r ↔
      LinearCompoundRel a.pts (Multiregion.interior m) (Multiregion.pts m)
        (Multiregion.exterior m) r := by
  obtain ⟨r', hr, h | ⟨-, h, -⟩⟩ := C37_contour_in_multiregion hc ha hm
  · obtain ⟨h1, h2, h3⟩ := multiregion_apart hm
    rw [hr]
    constructor
    · intro e; cases e; exact h
    · intro h'
      rw [LinearCompoundRel.unique ha.exists_mem h1 h2 h3 h h']
  · exact absurd neat h

/-- C37: if regions touch each other only at common vertices and the multisegment contains no whole
boundary of a region then the answer of `multisegment_in_multiregion` is determined by the relation to
the interior, the boundary and the exterior. -/
theorem C37_multisegment_in_multiregion_iff {context : Context K} (hc : context.Exact)
    {a : Multisegment K} {m : Multiregion K} (ha : a.segments ≠ []) (va : SegmentsValid a.segments)
    (hm : Multiregion.Valid m) (neat : Neat (m.flatMap Contour.edgeList))
    (hn : ∀ c ∈ m, ¬ Contour.pts c ⊆ segsPts a.segments) (r : Relation) :
    planar.multisegmentInMultiregion a m context = .ok r ↔
      LinearCompoundRel (segsPts a.segments) (Multiregion.interior m) (Multiregion.pts m)
        (Multiregion.exterior m) r := by
  obtain ⟨r', hr, h | ⟨-, ⟨c, h1, h2⟩, -⟩ | ⟨-, h, -⟩⟩ := C37_multisegment_in_multiregion hc ha va hm
  · obtain ⟨h1, h2, h3⟩ := multiregion_apart hm
    obtain ⟨u, hu⟩ := List.exists_mem_of_ne_nil _ ha
    rw [hr]
    constructor
    · intro e; cases e; exact h
    · intro h'
      rw [LinearCompoundRel.unique (S := segsPts a.segments) ⟨u.start, u, hu, u.start_mem⟩ h1 h2 h3 h h']
  · exact absurd h2 (hn c h1)
  · exact absurd neat h

/-! ### regions -/

/-- What `region_in_multiregion` answers, the box of the region being given. -/
theorem region_in_multiregion {context : Context K} (hc : context.Exact) {a : Region K}
    {m : Multiregion K} (ha : a.Simple) (hm : Multiregion.Valid m) :
    ∃ r, multiregion.relateRegionBoxed m a (context.contourBox a) context = .ok r ∧
      CompoundRel a.interior a.pts a.exterior (Multiregion.interior m) (Multiregion.pts m)
        (Multiregion.exterior m) r := by
  unfold multiregion.relateRegionBoxed
  obtain ⟨la, hla, oa⟩ := ha.oriented' hc false
  obtain ⟨L', -, o'⟩ := hm.oriented hc false
  have hX : Crosses ((kept context.contourBox (context.contourBox a) m).flatMap Contour.edgeList)
      a.edgeList → CompoundRel a.interior a.pts a.exterior (Multiregion.interior m) (Multiregion.pts m)
        (Multiregion.exterior m) .overlap := by
    rintro ⟨u, hu, v, hv, hs, p, pu, pv⟩
    obtain ⟨c, hcm, hv⟩ := List.mem_flatMap.mp hv
    have hcm := (kept_sublist (boxOf := context.contourBox) (context.contourBox a)).subset hcm
    have hv' : v ∈ edgesOf m := List.mem_flatMap.mpr ⟨c, hcm, hv⟩
    obtain ⟨⟨x, x1, x2⟩, ⟨y, y1, y2⟩⟩ := oa.outline.crossed_by ha.neat (o'.outline.nondegenerate v hv') hu
      (Set.inter_comm _ _ ▸ hs) pv pu
    obtain ⟨⟨z, z1, z2⟩, ⟨w, w1, w2⟩⟩ := (o'.outline.near oa.outline ⟨v, hv', x1⟩).1 x2
    obtain ⟨k, k1, k2⟩ := (o'.outline.near oa.outline ⟨v, hv', y1⟩).2 y2
    exact ⟨⟨z, z2, z1⟩, ⟨w, w2, w1⟩, ⟨k, k2, k1⟩⟩
  obtain ⟨r, hr, h⟩ := (hm.parts hc).compound hc oa
    (testBox := context.contourBox a) (hc.contourBox a ha.ne_nil).interior hX
  have e := segsPts_edgesOf m
  unfold edgesOf at e
  rw [e] at h
  refine ⟨r, ?_, ?_⟩
  · rw [← hr]
    unfold region.toOrientedSegments
    rw [hla]
    rfl
  · rcases h with h | ⟨rfl, h⟩
    · exact h
    · exact h

/-- C38: `region_in_multiregion` always answers for a region bounded by a simple contour and a valid
multiregion, and the answer is the relation of the interiors and boundaries. -/
theorem C38_region_in_multiregion {context : Context K} (hc : context.Exact) {a : Region K}
    {m : Multiregion K} (ha : a.Simple) (hm : Multiregion.Valid m) :
    ∃ r, planar.regionInMultiregion a m context = .ok r ∧
      CompoundRel a.interior a.pts a.exterior (Multiregion.interior m) (Multiregion.pts m)
        (Multiregion.exterior m) r :=
  region_in_multiregion hc ha hm

theorem multiregion_nonempty {m : Multiregion K} (hm : Multiregion.Valid m) (hne : m ≠ []) :
    (Multiregion.interior m).Nonempty ∧ (Multiregion.pts m).Nonempty := by
  obtain ⟨c, hc⟩ := List.exists_mem_of_ne_nil _ hne
  obtain ⟨x, hx⟩ := (hm.simple c hc).interior_nonempty
  obtain ⟨y, hy⟩ := (hm.simple c hc).exists_mem
  exact ⟨⟨x, c, hc, hx⟩, ⟨y, c, hc, hy⟩⟩

/-- C38: the answer of `region_in_multiregion` is determined by the relation of the interiors and the
boundaries. -/
theorem C38_region_in_multiregion_iff {context : Context K} (hc : context.Exact) {a : Region K}
    {m : Multiregion K} (ha : a.Simple) (hm : Multiregion.Valid m) (hne : m ≠ []) (r : Relation) :
    planar.regionInMultiregion a m context = .ok r ↔
      CompoundRel a.interior a.pts a.exterior (Multiregion.interior m) (Multiregion.pts m)
        (Multiregion.exterior m) r := by
  obtain ⟨r', hr, h⟩ := C38_region_in_multiregion hc ha hm
  obtain ⟨h1, h2, h3⟩ := multiregion_apart hm
  obtain ⟨n1, n2⟩ := multiregion_nonempty hm hne
  rw [hr]
  constructor
  · intro e; cases e; exact h
  · intro h'
    rw [CompoundRel.unique ha.interior_nonempty ha.exists_mem n1 n2 a.interior_pts a.interior_exterior
      h1 h2 h h']

/-! ### multiregions -/

theorem multiregion_box {context : Context K} (hc : context.Exact) {m : Multiregion K}
    (hm : Multiregion.Valid m) (hne : m ≠ []) :
    IsBoxOf (context.contoursBox m) (Multiregion.interior m ∪ Multiregion.pts m) := by
  have hb : IsBoxOf (context.contoursBox m) (Multiregion.pts m) :=
    hc.contoursBox m hne fun c hcm => (hm.simple c hcm).ne_nil
  have key : ∀ p ∈ Multiregion.interior m ∪ Multiregion.pts m, ∃ c ∈ m,
      p ∈ Contour.interior c ∪ Contour.pts c := by
    rintro p (⟨c, h1, h2⟩ | ⟨c, h1, h2⟩)
    · exact ⟨c, h1, .inl h2⟩
    · exact ⟨c, h1, .inr h2⟩
  have box : ∀ c ∈ m, IsBoxOf (context.contourBox c) (Contour.interior c ∪ Contour.pts c) :=
    fun c hcm => (hc.contourBox c (hm.simple c hcm).ne_nil).interior
  have inside : ∀ c ∈ m, ∀ q ∈ Contour.pts c, q ∈ Multiregion.pts m := fun c hcm q hq => ⟨c, hcm, hq⟩
  refine ⟨?_, ?_, ?_, ?_, ?_, ?_, ?_, ?_⟩
  · intro p hp
    obtain ⟨c, hcm, h⟩ := key p hp
    obtain ⟨q, hq, e⟩ := (hc.contourBox c (hm.simple c hcm).ne_nil).minX_mem
    exact ((hb.minX_le q (inside c hcm q hq)).trans_eq e).trans ((box c hcm).minX_le p h)
  · intro p hp
    obtain ⟨c, hcm, h⟩ := key p hp
    obtain ⟨q, hq, e⟩ := (hc.contourBox c (hm.simple c hcm).ne_nil).maxX_mem
    exact ((box c hcm).le_maxX p h).trans (e.symm.trans_le (hb.le_maxX q (inside c hcm q hq)))
  · intro p hp
    obtain ⟨c, hcm, h⟩ := key p hp
    obtain ⟨q, hq, e⟩ := (hc.contourBox c (hm.simple c hcm).ne_nil).minY_mem
    exact ((hb.minY_le q (inside c hcm q hq)).trans_eq e).trans ((box c hcm).minY_le p h)
  · intro p hp
    obtain ⟨c, hcm, h⟩ := key p hp
    obtain ⟨q, hq, e⟩ := (hc.contourBox c (hm.simple c hcm).ne_nil).maxY_mem
    exact ((box c hcm).le_maxY p h).trans (e.symm.trans_le (hb.le_maxY q (inside c hcm q hq)))
  · obtain ⟨p, hp, e⟩ := hb.minX_mem; exact ⟨p, .inr hp, e⟩
  · obtain ⟨p, hp, e⟩ := hb.maxX_mem; exact ⟨p, .inr hp, e⟩
  · obtain ⟨p, hp, e⟩ := hb.minY_mem; exact ⟨p, .inr hp, e⟩
  · obtain ⟨p, hp, e⟩ := hb.maxY_mem; exact ⟨p, .inr hp, e⟩

/-- C38: `multiregion_in_multiregion` always answers for valid multiregions, and the answer is the
relation of the interiors and boundaries. -/
theorem C38_multiregion_in_multiregion {context : Context K} (hc : context.Exact) {a b : Multiregion K}
    (ha : Multiregion.Valid a) (hb : Multiregion.Valid b) (na : a ≠ []) (nb : b ≠ []) :
    ∃ r, planar.multiregionInMultiregion a b context = .ok r ∧
      CompoundRel (Multiregion.interior a) (Multiregion.pts a) (Multiregion.exterior a)
        (Multiregion.interior b) (Multiregion.pts b) (Multiregion.exterior b) r := by
  unfold planar.multiregionInMultiregion multiregion.relateMultiregion
  have boxA := multiregion_box hc ha na
  have boxB := multiregion_box hc hb nb
  simp only
  by_cases h : box.disjointWith (context.contoursBox b) (context.contoursBox a) = true
  · refine ⟨.disjoint, by simp [h, pure, Except.pure], ?_⟩
    have := box.inter_empty boxB boxA h
    rw [Set.inter_comm] at this
    exact this
  rw [if_neg h]
  obtain ⟨la, hla, oa⟩ := ha.oriented hc false
  obtain ⟨lb, hlb, ob⟩ := hb.oriented hc false
  obtain ⟨m1, m2⟩ := marks_registered ob.ne oa.ne
  have hf := ((Fresh.empty : (State.empty : State K).Fresh).register false ob.ne).register true oa.ne
  have hX : Crosses (edgesOf b) (edgesOf a) → CompoundRel (Multiregion.interior a) (Multiregion.pts a)
      (Multiregion.exterior a) (Multiregion.interior b) (Multiregion.pts b) (Multiregion.exterior b)
        .overlap := by
    rintro ⟨u, hu, v, hv, hs, p, pu, pv⟩
    obtain ⟨d, hd, hu'⟩ := List.mem_flatMap.mp hu
    obtain ⟨c, hcm, hv'⟩ := List.mem_flatMap.mp hv
    obtain ⟨_, -, oc⟩ := (hb.simple c hcm).oriented' hc false
    obtain ⟨_, -, od⟩ := (ha.simple d hd).oriented' hc false
    obtain ⟨⟨x, x1, x2⟩, -⟩ := oc.outline.crossed_by (hb.simple c hcm).neat
      (oa.outline.nondegenerate u hu) hv' hs pu pv
    obtain ⟨⟨y, y1, y2⟩, -⟩ := od.outline.crossed_by (ha.simple d hd).neat
      (ob.outline.nondegenerate v hv) hu' (Set.inter_comm _ _ ▸ hs) pv pu
    obtain ⟨⟨z, z1, z2⟩, ⟨w, w1, w2⟩⟩ := (oa.outline.near ob.outline ⟨u, hu, x1⟩).1 ⟨c, hcm, x2⟩
    obtain ⟨-, ⟨k, k1, k2⟩⟩ := (ob.outline.near oa.outline ⟨v, hv, y1⟩).1 ⟨d, hd, y2⟩
    exact ⟨⟨z, z1, z2⟩, ⟨k, k2, k1⟩, ⟨w, w1, w2⟩⟩
  obtain ⟨r, hr, h⟩ := Outline.compound' hc hf (.of_eq m1) (.of_eq m2) (by simpa using ob.outline)
    (by simpa using oa.outline)
    (fun x hx => boxB.le_maxX x (.inr (segsPts_edgesOf b ▸ hx)))
    (fun x hx => boxA.le_maxX x (.inr (segsPts_edgesOf a ▸ hx)))
  rw [segsPts_edgesOf, segsPts_edgesOf] at h
  refine ⟨r, ?_, ?_⟩
  · rw [← hr, hla, hlb]
    rfl
  · rcases h.cases with h | ⟨rfl, h'⟩
    · exact h
    · exact hX (h'.crosses ob.outline.nondegenerate oa.outline.nondegenerate)

/-- C38: the answer of `multiregion_in_multiregion` is determined by the relation of the interiors and
the boundaries. -/
theorem C38_multiregion_in_multiregion_iff {context : Context K} (hc : context.Exact)
    {a b : Multiregion K} (ha : Multiregion.Valid a) (hb : Multiregion.Valid b) (na : a ≠ [])
    (nb : b ≠ []) (r : Relation) :
    planar.multiregionInMultiregion a b context = .ok r ↔
      CompoundRel (Multiregion.interior a) (Multiregion.pts a) (Multiregion.exterior a)
        (Multiregion.interior b) (Multiregion.pts b) (Multiregion.exterior b) r := by
  obtain ⟨r', hr, h⟩ := C38_multiregion_in_multiregion hc ha hb na nb
  obtain ⟨a1, a2, a3⟩ := multiregion_apart ha
  obtain ⟨b1, b2, b3⟩ := multiregion_apart hb
  obtain ⟨n1, n2⟩ := multiregion_nonempty ha na
  obtain ⟨k1, k2⟩ := multiregion_nonempty hb nb
  rw [hr]
  constructor
  · intro e; cases e; exact h
  · intro h'
    rw [CompoundRel.unique n1 n2 k1 k2 a1 a2 b1 b2 h h']

/-! ### examples -/

/-- Two triangles with a common vertex. -/
def exampleMultiregion : Multiregion ℚ :=
  [⟨[⟨0, 0⟩, ⟨4, 0⟩, ⟨0, 4⟩]⟩, ⟨[⟨4, 0⟩, ⟨8, 0⟩, ⟨8, 4⟩]⟩]

theorem exampleMultiregion_valid : Multiregion.Valid exampleMultiregion :=
  Multiregion.valid_of_check (by decide +kernel)

theorem exampleMultiregion_neat : Neat (exampleMultiregion.flatMap Contour.edgeList) :=
  neat_of_check (by decide +kernel)

/-- Segments with different relations to the triangles. -/
theorem C37_segment_example :
    LinearCompoundRel (⟨⟨1, 0⟩, ⟨7, 0⟩⟩ : Segment ℚ).pts (Multiregion.interior exampleMultiregion)
      (Multiregion.pts exampleMultiregion) (Multiregion.exterior exampleMultiregion) .component ∧
    LinearCompoundRel (⟨⟨1, 1⟩, ⟨7, 1⟩⟩ : Segment ℚ).pts (Multiregion.interior exampleMultiregion)
      (Multiregion.pts exampleMultiregion) (Multiregion.exterior exampleMultiregion) .cross ∧
    LinearCompoundRel (⟨⟨3, -1⟩, ⟨5, 1⟩⟩ : Segment ℚ).pts (Multiregion.interior exampleMultiregion)
      (Multiregion.pts exampleMultiregion) (Multiregion.exterior exampleMultiregion) .touch := by
  refine ⟨?_, ?_, ?_⟩ <;>
  exact (C37_segment_in_multiregion_iff reference.context_exact
    (by unfold Segment.Nondegenerate; decide +kernel) exampleMultiregion_valid exampleMultiregion_neat
    _).mp (by decide +kernel)

/-- A contour which goes through the common vertex of the triangles. -/
theorem C37_contour_example :
    LinearCompoundRel (⟨[⟨1, 0⟩, ⟨7, 0⟩, ⟨4, -3⟩]⟩ : Contour ℚ).pts
      (Multiregion.interior exampleMultiregion) (Multiregion.pts exampleMultiregion)
      (Multiregion.exterior exampleMultiregion) .touch :=
  (C37_contour_in_multiregion_iff reference.context_exact (Contour.simple_of_check (by decide +kernel))
    exampleMultiregion_valid exampleMultiregion_neat _).mp (by decide +kernel)

/-- A multisegment with a segment inside and a segment on the boundary. -/
theorem C37_multisegment_example :
    LinearCompoundRel (segsPts [⟨⟨1, 1⟩, ⟨2, 1⟩⟩, ⟨⟨4, 0⟩, ⟨6, 0⟩⟩])
      (Multiregion.interior exampleMultiregion) (Multiregion.pts exampleMultiregion)
      (Multiregion.exterior exampleMultiregion) .enclosed := by
  have key : ∀ c ∈ exampleMultiregion, ∃ u ∈ Contour.edgeList c,
      ¬ SharesPiece (segsPts [u]) (segsPts [⟨⟨1, 1⟩, ⟨2, 1⟩⟩, ⟨⟨4, 0⟩, ⟨6, 0⟩⟩]) ∧ u.Nondegenerate := by
    intro c hc
    simp only [exampleMultiregion, List.mem_cons, List.not_mem_nil, or_false] at hc
    rcases hc with rfl | rfl
    · exact ⟨⟨⟨0, 0⟩, ⟨4, 0⟩⟩, by decide +kernel, reference.sharesNothing_spec (by decide +kernel), by
        unfold Segment.Nondegenerate; decide +kernel⟩
    · exact ⟨⟨⟨8, 0⟩, ⟨8, 4⟩⟩, by decide +kernel, reference.sharesNothing_spec (by decide +kernel), by
        unfold Segment.Nondegenerate; decide +kernel⟩
  refine (C37_multisegment_in_multiregion_iff reference.context_exact
    (a := ⟨[⟨⟨1, 1⟩, ⟨2, 1⟩⟩, ⟨⟨4, 0⟩, ⟨6, 0⟩⟩]⟩) (by simp) (segmentsValid_of_check (by decide +kernel))
    exampleMultiregion_valid exampleMultiregion_neat (fun c hc hsub => ?_) _).mp (by decide +kernel)
  obtain ⟨u, hu, h1, h2⟩ := key c hc
  refine h1 ⟨u, h2, (segsPts_singleton u).ge, fun x hx => hsub ⟨u, hu, hx⟩⟩

/-- Two triangles, a vertex of the second one is in the middle of an edge of the first one. -/
def exampleTouching : Multiregion ℚ :=
  [⟨[⟨0, 0⟩, ⟨4, 0⟩, ⟨0, 4⟩]⟩, ⟨[⟨2, 2⟩, ⟨4, 3⟩, ⟨3, 4⟩]⟩]

/-- C37: the exception is real, a segment without outer points is answered `CROSS`. -/
theorem C37_counterexample :
    Multiregion.Valid exampleTouching ∧
      planar.segmentInMultiregion ⟨⟨1, 1⟩, ⟨3, 3⟩⟩ exampleTouching (reference.context : Context ℚ)
        = .ok .cross ∧
      LinearCompoundRel (⟨⟨1, 1⟩, ⟨3, 3⟩⟩ : Segment ℚ).pts (Multiregion.interior exampleTouching)
        (Multiregion.pts exampleTouching) (Multiregion.exterior exampleTouching) .enclosed := by
  have hv : Multiregion.Valid exampleTouching := Multiregion.valid_of_check (by decide +kernel)
  have h1 : planar.segmentInMultiregion ⟨⟨1, 1⟩, ⟨3, 3⟩⟩ exampleTouching (reference.context : Context ℚ)
      = .ok .cross := by decide +kernel
  refine ⟨hv, h1, ?_, ?_, ?_⟩
  · -- the parts before and after the common point are in the triangles
    refine Set.eq_empty_iff_forall_notMem.mpr ?_
    rintro x ⟨hx, he⟩
    have a1 : LinearCompoundRel (⟨⟨1, 1⟩, ⟨2, 2⟩⟩ : Segment ℚ).pts
        (Multiregion.interior [⟨[⟨0, 0⟩, ⟨4, 0⟩, ⟨0, 4⟩]⟩])
        (Multiregion.pts [⟨[⟨0, 0⟩, ⟨4, 0⟩, ⟨0, 4⟩]⟩])
        (Multiregion.exterior [⟨[⟨0, 0⟩, ⟨4, 0⟩, ⟨0, 4⟩]⟩]) .enclosed :=
      (C37_segment_in_multiregion_iff reference.context_exact
        (by unfold Segment.Nondegenerate; decide +kernel)
        (Multiregion.valid_of_check (by decide +kernel)) (neat_of_check (by decide +kernel)) _).mp
        (by decide +kernel)
    have a2 : LinearCompoundRel (⟨⟨2, 2⟩, ⟨3, 3⟩⟩ : Segment ℚ).pts
        (Multiregion.interior [⟨[⟨2, 2⟩, ⟨4, 3⟩, ⟨3, 4⟩]⟩])
        (Multiregion.pts [⟨[⟨2, 2⟩, ⟨4, 3⟩, ⟨3, 4⟩]⟩])
        (Multiregion.exterior [⟨[⟨2, 2⟩, ⟨4, 3⟩, ⟨3, 4⟩]⟩]) .enclosed :=
      (C37_segment_in_multiregion_iff reference.context_exact
        (by unfold Segment.Nondegenerate; decide +kernel)
        (Multiregion.valid_of_check (by decide +kernel)) (neat_of_check (by decide +kernel)) _).mp
        (by decide +kernel)
    have hx' : x ∈ (⟨⟨1, 1⟩, ⟨2, 2⟩⟩ : Segment ℚ).pts ∨ x ∈ (⟨⟨2, 2⟩, ⟨3, 3⟩⟩ : Segment ℚ).pts := by
      obtain ⟨t, t0, t1, rfl⟩ := hx
      rcases le_total t (1 / 2) with ht | ht
      · refine .inl ⟨2 * t, by linarith, by linarith, ?_⟩
        ext <;> simp only [lerp] <;> ring
      · refine .inr ⟨2 * t - 1, by linarith, by linarith, ?_⟩
        ext <;> simp only [lerp] <;> ring
    rcases hx' with hx' | hx'
    · exact Set.eq_empty_iff_forall_notMem.mp a1.1 x ⟨hx', fun c hc => by
        rw [List.mem_singleton] at hc; subst hc; exact he _ (by decide +kernel)⟩
    · exact Set.eq_empty_iff_forall_notMem.mp a2.1 x ⟨hx', fun c hc => by
        rw [List.mem_singleton] at hc; subst hc; exact he _ (by decide +kernel)⟩
  · exact ⟨⟨1, 1⟩, Segment.start_mem _, ⟨[⟨0, 0⟩, ⟨4, 0⟩, ⟨0, 4⟩]⟩, by decide +kernel,
      (C10_point_in_region_unique reference.context_exact ⟨1, 1⟩ _ .interior).mp (by decide +kernel)⟩
  · refine ⟨⟨2, 2⟩, ?_, ⟨[⟨0, 0⟩, ⟨4, 0⟩, ⟨0, 4⟩]⟩, by decide +kernel,
      (C10_point_in_region_unique reference.context_exact ⟨2, 2⟩ _ .boundary).mp (by decide +kernel)⟩
    rw [Segment.mem_pts_iff]
    constructor <;> decide +kernel

/-- A triangle which covers parts of both triangles, and one inside of one of them. -/
theorem C38_region_example :
    CompoundRel (⟨[⟨1, 1⟩, ⟨7, 1⟩, ⟨4, 9⟩]⟩ : Contour ℚ).interior (⟨[⟨1, 1⟩, ⟨7, 1⟩, ⟨4, 9⟩]⟩ : Contour ℚ).pts
      (⟨[⟨1, 1⟩, ⟨7, 1⟩, ⟨4, 9⟩]⟩ : Contour ℚ).exterior (Multiregion.interior exampleMultiregion)
      (Multiregion.pts exampleMultiregion) (Multiregion.exterior exampleMultiregion) .overlap ∧
    CompoundRel (⟨[⟨4, 0⟩, ⟨8, 0⟩, ⟨7, 1⟩]⟩ : Contour ℚ).interior (⟨[⟨4, 0⟩, ⟨8, 0⟩, ⟨7, 1⟩]⟩ : Contour ℚ).pts
      (⟨[⟨4, 0⟩, ⟨8, 0⟩, ⟨7, 1⟩]⟩ : Contour ℚ).exterior (Multiregion.interior exampleMultiregion)
      (Multiregion.pts exampleMultiregion) (Multiregion.exterior exampleMultiregion) .enclosed := by
  refine ⟨?_, ?_⟩ <;>
  exact (C38_region_in_multiregion_iff reference.context_exact
    (Contour.simple_of_check (by decide +kernel)) exampleMultiregion_valid (by decide +kernel) _).mp
    (by decide +kernel)

/-- A part of the triangles, compared with all of them. -/
theorem C38_multiregion_example :
    CompoundRel (Multiregion.interior [⟨[⟨0, 0⟩, ⟨4, 0⟩, ⟨0, 4⟩]⟩])
      (Multiregion.pts [⟨[⟨0, 0⟩, ⟨4, 0⟩, ⟨0, 4⟩]⟩]) (Multiregion.exterior [⟨[⟨0, 0⟩, ⟨4, 0⟩, ⟨0, 4⟩]⟩])
      (Multiregion.interior exampleMultiregion) (Multiregion.pts exampleMultiregion)
      (Multiregion.exterior exampleMultiregion) .component :=
  (C38_multiregion_in_multiregion_iff reference.context_exact
    (Multiregion.valid_of_check (by decide +kernel)) exampleMultiregion_valid (by decide +kernel)
    (by decide +kernel) _).mp (by decide +kernel)

end Orient.Props
