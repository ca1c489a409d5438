import Verif.Props.MultiregionRelations

/-! C39, C40, C41: relations with polygons as a whole and with multipolygons. -/

set_option linter.unusedSectionVars false

namespace Orient.Props

open eventsQueue State

variable {K : Type} [Field K] [LinearOrder K] [IsStrictOrderedRing K]

/-- The box of a union. -/
theorem _root_.Orient.IsBoxOf.parts {α : Type} {l : List α} {b : Box K} {boxOf : α → Box K}
    {S R : α → Set (Point K)} (hb : IsBoxOf b {p | ∃ k ∈ l, p ∈ S k})
    (h1 : ∀ k ∈ l, IsBoxOf (boxOf k) (S k)) (h2 : ∀ k ∈ l, IsBoxOf (boxOf k) (R k))
    (h3 : ∀ k ∈ l, S k ⊆ R k) : IsBoxOf b {p | ∃ k ∈ l, p ∈ R k} := by
  refine ⟨?_, ?_, ?_, ?_, ?_, ?_, ?_, ?_⟩
  · rintro p ⟨k, hk, h⟩
    obtain ⟨q, hq, e⟩ := (h1 k hk).minX_mem
    exact ((hb.minX_le q ⟨k, hk, hq⟩).trans_eq e).trans ((h2 k hk).minX_le p h)
  · rintro p ⟨k, hk, h⟩
    obtain ⟨q, hq, e⟩ := (h1 k hk).maxX_mem
    exact ((h2 k hk).le_maxX p h).trans (e.symm.trans_le (hb.le_maxX q ⟨k, hk, hq⟩))
  · rintro p ⟨k, hk, h⟩
    obtain ⟨q, hq, e⟩ := (h1 k hk).minY_mem
    exact ((hb.minY_le q ⟨k, hk, hq⟩).trans_eq e).trans ((h2 k hk).minY_le p h)
  · rintro p ⟨k, hk, h⟩
    obtain ⟨q, hq, e⟩ := (h1 k hk).maxY_mem
    exact ((h2 k hk).le_maxY p h).trans (e.symm.trans_le (hb.le_maxY q ⟨k, hk, hq⟩))
  · obtain ⟨p, ⟨k, hk, h⟩, e⟩ := hb.minX_mem; exact ⟨p, ⟨k, hk, h3 k hk h⟩, e⟩
  · obtain ⟨p, ⟨k, hk, h⟩, e⟩ := hb.maxX_mem; exact ⟨p, ⟨k, hk, h3 k hk h⟩, e⟩
  · obtain ⟨p, ⟨k, hk, h⟩, e⟩ := hb.minY_mem; exact ⟨p, ⟨k, hk, h3 k hk h⟩, e⟩
  · obtain ⟨p, ⟨k, hk, h⟩, e⟩ := hb.maxY_mem; exact ⟨p, ⟨k, hk, h3 k hk h⟩, e⟩

/-! ### polygons -/

/-- The parts of the plane with respect to an outline exclude each other. -/
theorem oriented_apart {b : Bool} {l : List (SegmentEndpoints K)} {G : List (Segment K)}
    {I E : Set (Point K)} (o : Oriented b l G I E) :
    I ∩ segsPts G = ∅ ∧ I ∩ E = ∅ ∧ segsPts G ∩ E = ∅ := by
  refine ⟨?_, ?_, ?_⟩ <;> refine Set.eq_empty_iff_forall_notMem.mpr ?_
  · rintro x ⟨h1, h2⟩
    exact o.outline.interior h1 h2
  · rintro x ⟨h1, h2⟩
    exact o.outline.not_both h1 h2
  · rintro x ⟨h1, h2⟩
    exact o.outline.exterior h2 h1

theorem polygon_apart {g : Polygon K} (hg : g.Valid) :
    g.interior ∩ g.pts = ∅ ∧ g.interior ∩ g.exterior = ∅ ∧ g.pts ∩ g.exterior = ∅ := by
  obtain ⟨L, -, o⟩ := hg.oriented reference.context_exact false
  have := oriented_apart o
  rwa [Polygon.segsPts_edges] at this

theorem multipolygon_apart {m : Multipolygon K} (hm : m.Valid) :
    m.interior ∩ m.pts = ∅ ∧ m.interior ∩ m.exterior = ∅ ∧ m.pts ∩ m.exterior = ∅ := by
  obtain ⟨L, -, o⟩ := polygons_oriented reference.context_exact hm false
  have := oriented_apart o
  rwa [segsPts_polygonsEdges] at this

/-- A segment which crosses an edge of a polygon has outer points, and inner points if edges meet only in
common endpoints. -/
theorem polygon_crossed {g : Polygon K} (hg : g.Valid) {T : List (Segment K)}
    (vT : ∀ u ∈ T, u.Nondegenerate) (h : Crosses g.edges T) :
    (segsPts T ∩ g.exterior).Nonempty ∧ (segsPts T ∩ g.pts).Nonempty ∧
      (Neat g.edges → (segsPts T ∩ g.interior).Nonempty) := by
  obtain ⟨u, hu, v, hv, hs, p, pu, pv⟩ := h
  obtain ⟨L, -, o⟩ := hg.oriented reference.context_exact false
  refine ⟨?_, ⟨p, ⟨u, hu, pu.1⟩, by rw [← Polygon.segsPts_edges]; exact ⟨v, hv, pv.1⟩⟩, fun hn => ?_⟩
  · rcases List.mem_append.mp hv with hv | hv
    · obtain ⟨_, -, ob⟩ := hg.border.oriented' reference.context_exact false
      obtain ⟨-, ⟨y, y1, y2⟩⟩ := ob.outline.crossed_by hg.border.neat (vT u hu) hv hs pu pv
      exact ⟨y, ⟨u, hu, y1⟩, .inl y2⟩
    · obtain ⟨d, hd, hv⟩ := List.mem_flatMap.mp hv
      obtain ⟨_, -, ob⟩ := (hg.holes.simple d hd).oriented' reference.context_exact false
      obtain ⟨⟨y, y1, y2⟩, -⟩ := ob.outline.crossed_by (hg.holes.simple d hd).neat (vT u hu) hv hs pu pv
      exact ⟨y, ⟨u, hu, y1⟩, .inr ⟨d, hd, y2⟩⟩
  · obtain ⟨⟨y, y1, y2⟩, -⟩ := o.outline.crossed_by hn (vT u hu) hv hs pu pv
    exact ⟨y, ⟨u, hu, y1⟩, y2⟩

/-- C39: `multisegment_in_polygon` always answers for valid operands, and the answer is the relation of
the multisegment to the interior, the boundary and the exterior, with two exceptions: a multisegment
which contains the whole boundary of the polygon, inner points and outer points may be answered `TOUCH`
instead of `CROSS`, and if a vertex of a hole or of the border is in the middle of an edge then a
multisegment without inner points may be answered `CROSS` instead of `TOUCH`. -/
theorem C39_multisegment_in_polygon {context : Context K} (hc : context.Exact) {a : Multisegment K}
    {g : Polygon K} (ha : a.segments ≠ []) (va : SegmentsValid a.segments) (hg : g.Valid) :
    ∃ r, planar.multisegmentInPolygon a g context = .ok r ∧
      (LinearCompoundRel (segsPts a.segments) g.interior g.pts g.exterior r ∨
        (r = .touch ∧ g.pts ⊆ segsPts a.segments ∧
          LinearCompoundRel (segsPts a.segments) g.interior g.pts g.exterior .cross) ∨
        (r = .cross ∧ ¬ Neat g.edges ∧
          LinearCompoundRel (segsPts a.segments) g.interior g.pts g.exterior .touch)) := by
  unfold planar.multisegmentInPolygon polygon.relateMultisegment
  have boxG := hg.box hc
  have boxA := hc.segmentsBox _ ha
  simp only
  by_cases h : box.disjointWith (context.polygonBox g) (context.segmentsBox a.segments) = true
  · refine ⟨.disjoint, by simp [h, pure, Except.pure], .inl ?_⟩
    have hd := box.inter_empty boxG boxA h
    obtain ⟨L, -, o⟩ := hg.oriented hc false
    intro x hx
    have hn := fun h' => Set.eq_empty_iff_forall_notMem.mp hd x ⟨h', hx⟩
    exact (o.outline.cover (fun h' => hn (.inr (g.segsPts_edges ▸ h')))).resolve_left
      fun h' => hn (.inl h')
  rw [if_neg h]
  obtain ⟨lg, hlg, og⟩ := hg.oriented hc false
  have nT := (matches_segments a).ne va.1
  obtain ⟨m1, m2⟩ := marks_registered og.ne nT
  have hf := ((Fresh.empty : (State.empty : State K).Fresh).register false og.ne).register true nT
  obtain ⟨r, hr, h⟩ := Outline.linearCompound' hc hf (T := a.segments) (.of_eq m1)
    (by
      rw [m2, map_marked_fst]
      refine .of_eq ?_
      unfold multisegment.toSegmentsEndpoints
      rw [List.map_map]
      rfl)
    (by simpa using og.outline) va.2
    (Polygon.edges_ne_nil hg) (fun x hx => boxG.le_maxX x (.inr (g.segsPts_edges ▸ hx))) boxA.le_maxX
  rw [min_comm] at hr
  rw [Polygon.segsPts_edges] at h
  refine ⟨r, ?_, ?_⟩
  · rw [← hr, hlg]
    rfl
  · rcases h.cases with h | ⟨h1, -, h2, h3⟩ | ⟨rfl, hX⟩
    · exact .inl h
    · exact .inr (.inl ⟨h1, h2, h3⟩)
    · obtain ⟨h1, h2, h3⟩ := polygon_crossed hg va.1 (hX.crosses og.outline.nondegenerate va.1)
      by_cases he : (segsPts a.segments ∩ g.interior).Nonempty
      · exact .inl ⟨he, h1⟩
      · exact .inr (.inr ⟨rfl, fun hn => he (h3 hn), Set.not_nonempty_iff_eq_empty.mp he, h1, h2⟩)

/-- C39: if the border and the holes touch each other only at common vertices and the multisegment does
not contain the whole boundary then the answer of `multisegment_in_polygon` is determined by the relation
to the interior, the boundary and the exterior. -/
theorem C39_multisegment_in_polygon_iff {context : Context K} (hc : context.Exact)
    {a : Multisegment K} {g : Polygon K} (ha : a.segments ≠ []) (va : SegmentsValid a.segments)
    (hg : g.Valid) (neat : Neat g.edges) (hn : ¬ g.pts ⊆ segsPts a.segments) (r : Relation) :
    planar.multisegmentInPolygon a g context = .ok r ↔
      LinearCompoundRel (segsPts a.segments) g.interior g.pts g.exterior r := by
  obtain ⟨r', hr, h | ⟨-, h2, -⟩ | ⟨-, h, -⟩⟩ := C39_multisegment_in_polygon hc ha va hg
  · obtain ⟨h1, h2, h3⟩ := polygon_apart hg
    obtain ⟨u, hu⟩ := List.exists_mem_of_ne_nil _ ha
    rw [hr]
    constructor
    · intro e; cases e; exact h
    · intro h'
      rw [LinearCompoundRel.unique (S := segsPts a.segments) ⟨u.start, u, hu, u.start_mem⟩ h1 h2 h3 h h']
  · exact absurd h2 hn
  · exact absurd neat h

/-! ### linear geometries and multipolygons -/

/-- What is answered about segments and a multipolygon. -/
theorem linear_in_multipolygon {context : Context K} (hc : context.Exact) {m : Multipolygon K}
    (hm : m.Valid) {test : List (SegmentEndpoints K)} {T : List (Segment K)}
    (pT : (test.map sorted).Perm (T.map Segment.up)) (ne : ∀ e ∈ test, e.1 ≠ e.2)
    (vT : SegmentsValid T) {testBox : Box K} (hb : IsBoxOf testBox (segsPts T)) :
    ∃ r, (do
        let (_, registered) ← registerParts context.polygonBox
          (fun polygon => Orient.polygon.toOrientedEdgesEndpoints polygon context) testBox (.ok test)
          m.polygons true none
        match registered with
        | none => return .disjoint
        | some (maxX, s) => runLinearCompound context s (min testBox.maxX maxX) : Py Relation) = .ok r ∧
      (LinearCompoundRel (segsPts T) m.interior m.pts m.exterior r ∨
        (r = .touch ∧ (∃ g ∈ m.polygons, Polygon.pts g ⊆ segsPts T) ∧
          LinearCompoundRel (segsPts T) m.interior m.pts m.exterior .cross) ∨
        (r = .cross ∧ ¬ Neat (m.polygons.flatMap Polygon.edges) ∧ (segsPts T ∩ m.pts).Nonempty)) := by
  obtain ⟨L, -, o⟩ := polygons_oriented hc hm false
  obtain ⟨r, hr, h⟩ := (hm.parts hc).linearCompound hc pT ne vT hb
    (Q := LinearCompoundRel (segsPts T) m.interior m.pts m.exterior .cross ∨
      (¬ Neat (m.polygons.flatMap Polygon.edges) ∧ (segsPts T ∩ m.pts).Nonempty)) (by
    rintro ⟨u, hu, v, hv, hs, p, pu, pv⟩
    obtain ⟨g, hg, hv⟩ := List.mem_flatMap.mp hv
    have hv : v ∈ polygonsEdges m.polygons :=
      List.mem_flatMap.mpr ⟨g, (kept_sublist (boxOf := context.polygonBox) testBox).subset hg, hv⟩
    by_cases hn : Neat (m.polygons.flatMap Polygon.edges)
    · obtain ⟨⟨x, x1, x2⟩, ⟨y, y1, y2⟩⟩ := o.outline.crossed_by hn (vT.1 u hu) hv hs pu pv
      exact .inl ⟨⟨x, ⟨u, hu, x1⟩, x2⟩, ⟨y, ⟨u, hu, y1⟩, y2⟩⟩
    · refine .inr ⟨hn, p, ⟨u, hu, pu.1⟩, ?_⟩
      rw [← segsPts_polygonsEdges]
      exact ⟨v, hv, pv.1⟩)
  have e := segsPts_polygonsEdges m
  unfold polygonsEdges at e
  rw [e] at h
  refine ⟨r, hr, ?_⟩
  rcases h with h | ⟨h1, ⟨g, hg, h2⟩, h3⟩ | ⟨rfl, h | h⟩
  · exact .inl h
  · exact .inr (.inl ⟨h1, ⟨g, hg, by rw [← Polygon.segsPts_edges]; exact h2⟩, h3⟩)
  · exact .inl h
  · exact .inr (.inr ⟨rfl, h⟩)

/-- C40: `multisegment_in_multipolygon` always answers for valid operands, and the answer is the relation
of the multisegment to the interior, the boundary and the exterior, with two exceptions: a multisegment
which contains the whole boundary of a polygon, inner points and outer points may be answered `TOUCH`
instead of `CROSS`, and if a vertex is in the middle of another edge then a multisegment which meets the
boundary may be answered `CROSS`. -/
theorem C40_multisegment_in_multipolygon {context : Context K} (hc : context.Exact)
    {a : Multisegment K} {m : Multipolygon K} (ha : a.segments ≠ []) (va : SegmentsValid a.segments)
    (hm : m.Valid) :
    ∃ r, planar.multisegmentInMultipolygon a m context = .ok r ∧
      (LinearCompoundRel (segsPts a.segments) m.interior m.pts m.exterior r ∨
        (r = .touch ∧ (∃ g ∈ m.polygons, Polygon.pts g ⊆ segsPts a.segments) ∧
          LinearCompoundRel (segsPts a.segments) m.interior m.pts m.exterior .cross) ∨
        (r = .cross ∧ ¬ Neat (m.polygons.flatMap Polygon.edges) ∧
          (segsPts a.segments ∩ m.pts).Nonempty)) := by
  unfold planar.multisegmentInMultipolygon multipolygon.relateMultisegment
  refine linear_in_multipolygon hc hm (.of_eq ?_) ((matches_segments a).ne va.1) va
    (hc.segmentsBox _ ha)
  unfold multisegment.toSegmentsEndpoints
  rw [List.map_map]
  rfl

/-- C40: `segment_in_multipolygon` always answers for a non-degenerate segment and a valid multipolygon,
and the answer is the relation of the segment to the interior, the boundary and the exterior, except that
if a vertex is in the middle of another edge then a segment which meets the boundary may be answered
`CROSS`. -/
theorem C40_segment_in_multipolygon {context : Context K} (hc : context.Exact) {a : Segment K}
    {m : Multipolygon K} (ha : a.Nondegenerate) (hm : m.Valid) :
    ∃ r, planar.segmentInMultipolygon a m context = .ok r ∧
      (LinearCompoundRel a.pts m.interior m.pts m.exterior r ∨
        (r = .cross ∧ ¬ Neat (m.polygons.flatMap Polygon.edges) ∧ (a.pts ∩ m.pts).Nonempty)) := by
  have va : SegmentsValid [a] := ⟨by simpa using ha, List.pairwise_singleton _ _⟩
  obtain ⟨r, hr, h⟩ := C40_multisegment_in_multipolygon hc (a := ⟨[a]⟩) (by simp) va hm
  rw [segsPts_singleton] at h
  refine ⟨r, hr, ?_⟩
  rcases h with h | ⟨-, ⟨g, hg, hs⟩, -⟩ | h
  · exact .inl h
  · exact absurd (Set.subset_union_left.trans hs) ((hm.valid g hg).border.not_subset_segment ha)
  · exact .inr h

/-- C40: `contour_in_multipolygon` always answers for a simple contour and a valid multipolygon, and the
answer is the relation of the contour to the interior, the boundary and the exterior, except that if a
vertex is in the middle of another edge then a contour which meets the boundary may be answered
`CROSS`. -/
theorem C40_contour_in_multipolygon {context : Context K} (hc : context.Exact) {a : Contour K}
    {m : Multipolygon K} (ha : a.Simple) (hm : m.Valid) :
    ∃ r, planar.contourInMultipolygon a m context = .ok r ∧
      (LinearCompoundRel a.pts m.interior m.pts m.exterior r ∨
        (r = .cross ∧ ¬ Neat (m.polygons.flatMap Polygon.edges) ∧ (a.pts ∩ m.pts).Nonempty)) := by
  unfold planar.contourInMultipolygon multipolygon.relateContour
  obtain ⟨r, hr, h⟩ := linear_in_multipolygon hc hm (T := a.edgeList)
    (test := contour.toEdgesEndpoints a) (.of_eq (by
      rw [← toEdgesEndpoints_ofEndpoints, List.map_map]; rfl)) ((matches_edges a).ne ha.valid.1) ha.valid
    (testBox := context.contourBox a) (hc.contourBox a ha.ne_nil)
  refine ⟨r, hr, ?_⟩
  rcases h with h | ⟨-, ⟨g, hg, hs⟩, ⟨x, x1, x2⟩, -⟩ | h
  · exact .inl h
  · have hs' := Set.subset_union_left.trans hs
    have e := ha.pts_eq_of_subset (hm.valid g hg).border hs'
    refine absurd (⟨x2, g, hg, ?_⟩ : x ∈ m.interior ∩ m.pts)
      (Set.eq_empty_iff_forall_notMem.mp (multipolygon_apart hm).1 x)
    exact .inl (e ▸ x1)
  · exact .inr h

/-- C40: if polygons touch each other only at common vertices and the multisegment does not contain the
whole boundary of a polygon then the answer of `multisegment_in_multipolygon` is determined by the
relation to the interior, the boundary and the exterior. -/
theorem C40_multisegment_in_multipolygon_iff {context : Context K} (hc : context.Exact)
    {a : Multisegment K} {m : Multipolygon K} (ha : a.segments ≠ []) (va : SegmentsValid a.segments)
    (hm : m.Valid) (neat : Neat (m.polygons.flatMap Polygon.edges))
    (hn : ∀ g ∈ m.polygons, ¬ Polygon.pts g ⊆ segsPts a.segments) (r : Relation) :
    planar.multisegmentInMultipolygon a m context = .ok r ↔
      LinearCompoundRel (segsPts a.segments) m.interior m.pts m.exterior r := by
  obtain ⟨r', hr, h | ⟨-, ⟨c, h1, h2⟩, -⟩ | ⟨-, h, -⟩⟩ := C40_multisegment_in_multipolygon hc ha va hm
  · obtain ⟨h1, h2, h3⟩ := multipolygon_apart hm
    obtain ⟨u, hu⟩ := List.exists_mem_of_ne_nil _ ha
    rw [hr]
    constructor
    · intro e; cases e; exact h
    · intro h'
      rw [LinearCompoundRel.unique (S := segsPts a.segments) ⟨u.start, u, hu, u.start_mem⟩ h1 h2 h3 h h']
  · exact absurd h2 (hn c h1)
  · exact absurd neat h

/-- C40: if polygons touch each other only at common vertices then the answer of
`segment_in_multipolygon` is determined by the relation to the interior, the boundary and the
exterior. -/
theorem C40_segment_in_multipolygon_iff {context : Context K} (hc : context.Exact) {a : Segment K}
    {m : Multipolygon K} (ha : a.Nondegenerate) (hm : m.Valid)
    (neat : Neat (m.polygons.flatMap Polygon.edges)) (r : Relation) :
    planar.segmentInMultipolygon a m context = .ok r ↔
      LinearCompoundRel a.pts m.interior m.pts m.exterior r := by
  obtain ⟨r', hr, h | ⟨-, h, -⟩⟩ := C40_segment_in_multipolygon hc ha hm
  · obtain ⟨h1, h2, h3⟩ := multipolygon_apart hm
    rw [hr]
    constructor
    · intro e; cases e; exact h
    · intro h'
      rw [LinearCompoundRel.unique ⟨_, a.start_mem⟩ h1 h2 h3 h h']
  · exact absurd neat h

/-- C40: if polygons touch each other only at common vertices then the answer of
`contour_in_multipolygon` is determined by the relation to the interior, the boundary and the
exterior. -/
theorem C40_contour_in_multipolygon_iff {context : Context K} (hc : context.Exact) {a : Contour K}
    {m : Multipolygon K} (ha : a.Simple) (hm : m.Valid)
    (neat : Neat (m.polygons.flatMap Polygon.edges)) (r : Relation) :
    planar.contourInMultipolygon a m context = .ok r ↔
      LinearCompoundRel a.pts m.interior m.pts m.exterior r := by
  obtain ⟨r', hr, h | ⟨-, h, -⟩⟩ := C40_contour_in_multipolygon hc ha hm
  · obtain ⟨h1, h2, h3⟩ := multipolygon_apart hm
    rw [hr]
    constructor
    · intro e; cases e; exact h
    · intro h'
      rw [LinearCompoundRel.unique ha.exists_mem h1 h2 h3 h h']
  · exact absurd neat h

/-! ### areas and multipolygons -/

/-- If an edge of an area crosses an edge of another one and the edges of one of the areas meet each
other only in common endpoints then the areas overlap. -/
theorem overlap_of_crosses {b b' : Bool} {l l' : List (SegmentEndpoints K)} {T G : List (Segment K)}
    {I E I' E' : Set (Point K)} (ot : Oriented b l T I E) (og : Oriented b' l' G I' E')
    (h : Crosses G T) (hn : Neat T ∨ Neat G) :
    (I ∩ I').Nonempty ∧ (I ∩ E').Nonempty ∧ (E ∩ I').Nonempty := by
  obtain ⟨u, hu, v, hv, hs, p, pu, pv⟩ := h
  rcases hn with hn | hn
  · obtain ⟨⟨x, x1, x2⟩, ⟨y, y1, y2⟩⟩ := ot.outline.crossed_by hn (og.outline.nondegenerate v hv) hu
      (Set.inter_comm _ _ ▸ hs) pv pu
    obtain ⟨⟨z, z1, z2⟩, ⟨w, w1, w2⟩⟩ := (og.outline.near ot.outline ⟨v, hv, x1⟩).1 x2
    obtain ⟨k, k1, k2⟩ := (og.outline.near ot.outline ⟨v, hv, y1⟩).2 y2
    exact ⟨⟨z, z2, z1⟩, ⟨w, w2, w1⟩, ⟨k, k2, k1⟩⟩
  · obtain ⟨⟨x, x1, x2⟩, ⟨y, y1, y2⟩⟩ := og.outline.crossed_by hn (ot.outline.nondegenerate u hu) hv
      hs pu pv
    obtain ⟨⟨z, z1, z2⟩, ⟨w, w1, w2⟩⟩ := (ot.outline.near og.outline ⟨u, hu, x1⟩).1 x2
    obtain ⟨k, k1, k2⟩ := (ot.outline.near og.outline ⟨u, hu, y1⟩).2 y2
    exact ⟨⟨z, z1, z2⟩, ⟨k, k1, k2⟩, ⟨w, w1, w2⟩⟩

/-- What is answered about an area and a multipolygon of which parts may be skipped. -/
theorem area_in_multipolygon {context : Context K} (hc : context.Exact) {m : Multipolygon K}
    (hm : m.Valid) {test : List (SegmentEndpoints K)} {T : List (Segment K)} {I E : Set (Point K)}
    (ot : Oriented false test T I E) {testBox : Box K}
    (hb : IsBoxOf testBox (I ∪ segsPts T)) :
    ∃ r, (do
        let (noneDisjoint, registered) ← registerParts context.polygonBox
          (fun polygon => Orient.polygon.toOrientedEdgesEndpoints polygon context) testBox (.ok test)
          m.polygons true none
        match registered with
        | none => return .disjoint
        | some (maxX, s) =>
          let relation ← runCompound context s (min maxX testBox.maxX)
          return correctSkipped noneDisjoint relation : Py Relation) = .ok r ∧
      (CompoundRel I (segsPts T) E m.interior m.pts m.exterior r ∨
        (r = .overlap ∧ ¬ Neat T ∧ ¬ Neat (m.polygons.flatMap Polygon.edges))) := by
  obtain ⟨L, -, o⟩ := polygons_oriented hc hm false
  obtain ⟨r, hr, h⟩ := (hm.parts hc).compound hc ot hb
    (Q := CompoundRel I (segsPts T) E m.interior m.pts m.exterior .overlap ∨
      (¬ Neat T ∧ ¬ Neat (m.polygons.flatMap Polygon.edges))) (by
    rintro ⟨u, hu, v, hv, h⟩
    obtain ⟨g, hg, hv⟩ := List.mem_flatMap.mp hv
    have hv : v ∈ polygonsEdges m.polygons :=
      List.mem_flatMap.mpr ⟨g, (kept_sublist (boxOf := context.polygonBox) testBox).subset hg, hv⟩
    by_cases hn : Neat T ∨ Neat (m.polygons.flatMap Polygon.edges)
    · exact .inl (overlap_of_crosses ot o ⟨u, hu, v, hv, h⟩ hn)
    · exact .inr (not_or.mp hn))
  have e := segsPts_polygonsEdges m
  unfold polygonsEdges at e
  rw [e] at h
  refine ⟨r, hr, ?_⟩
  rcases h with h | ⟨rfl, h | h⟩
  · exact .inl h
  · exact .inl h
  · exact .inr ⟨rfl, h⟩

/-- C41: `region_in_multipolygon` always answers for a region bounded by a simple contour and a valid
multipolygon, and the answer is the relation of the interiors and boundaries. -/
theorem C41_region_in_multipolygon {context : Context K} (hc : context.Exact) {a : Region K}
    {m : Multipolygon K} (ha : a.Simple) (hm : m.Valid) :
    ∃ r, planar.regionInMultipolygon a m context = .ok r ∧
      CompoundRel a.interior a.pts a.exterior m.interior m.pts m.exterior r := by
  unfold planar.regionInMultipolygon multipolygon.relateRegion
  obtain ⟨la, hla, oa⟩ := ha.oriented' hc false
  obtain ⟨r, hr, h⟩ := area_in_multipolygon hc hm oa
    (testBox := context.contourBox a) (hc.contourBox a ha.ne_nil).interior
  refine ⟨r, ?_, ?_⟩
  · rw [← hr]
    unfold region.toOrientedSegments
    rw [hla]
    rfl
  · rcases h with h | ⟨-, h, -⟩
    · exact h
    · exact absurd ha.neat h

/-- C41: `polygon_in_multipolygon` always answers for valid operands, and the answer is the relation of
the interiors and boundaries, except that it may be `OVERLAP` by mistake if in both operands a vertex is
in the middle of another edge. -/
theorem C41_polygon_in_multipolygon {context : Context K} (hc : context.Exact) {a : Polygon K}
    {m : Multipolygon K} (ha : a.Valid) (hm : m.Valid) :
    ∃ r, planar.polygonInMultipolygon a m context = .ok r ∧
      (CompoundRel a.interior a.pts a.exterior m.interior m.pts m.exterior r ∨
        (r = .overlap ∧ ¬ Neat a.edges ∧ ¬ Neat (m.polygons.flatMap Polygon.edges))) := by
  unfold planar.polygonInMultipolygon multipolygon.relatePolygon
  obtain ⟨la, hla, oa⟩ := ha.oriented hc false
  have hb := ha.box hc
  rw [← Polygon.segsPts_edges] at hb
  obtain ⟨r, hr, h⟩ := area_in_multipolygon hc hm oa hb
  rw [Polygon.segsPts_edges] at h
  refine ⟨r, ?_, h⟩
  rw [← hr, hla]
  rfl

/-- The box of a multipolygon. -/
theorem multipolygon_box {context : Context K} (hc : context.Exact) {m : Multipolygon K}
    (hm : m.Valid) (hne : m.polygons ≠ []) :
    IsBoxOf (context.polygonsBox m.polygons) (m.interior ∪ m.pts) := by
  have hb := hc.polygonsBox m.polygons hne fun g hg => (hm.valid g hg).border.ne_nil
  have hb' : IsBoxOf (context.polygonsBox m.polygons) {p | ∃ g ∈ m.polygons, p ∈ g.interior ∪ g.pts} :=
    hb.parts (boxOf := context.polygonBox) (fun g hg => hc.polygonBox g (hm.valid g hg).border.ne_nil)
      (fun g hg => (hm.valid g hg).box hc) (fun g _ x hx => .inr (.inl hx))
  refine hb'.between hb' ?_ ?_
  · rintro x ⟨g, hg, h | h⟩
    · exact .inl ⟨g, hg, h⟩
    · exact .inr ⟨g, hg, h⟩
  · rintro x (⟨g, hg, h⟩ | ⟨g, hg, h⟩)
    · exact ⟨g, hg, .inl h⟩
    · exact ⟨g, hg, .inr h⟩

theorem polygonsEdges_ne_nil {m : Multipolygon K} (hm : m.Valid) (hne : m.polygons ≠ []) :
    polygonsEdges m.polygons ≠ [] := by
  obtain ⟨g, hg⟩ := List.exists_mem_of_ne_nil _ hne
  intro e
  exact Polygon.edges_ne_nil (hm.valid g hg) (List.flatMap_eq_nil_iff.mp e g hg)

theorem edgesOf_ne_nil {m : Multiregion K} (hm : Multiregion.Valid m) (hne : m ≠ []) :
    edgesOf m ≠ [] := by
  obtain ⟨c, hcm⟩ := List.exists_mem_of_ne_nil _ hne
  intro e
  exact Contour.edgeList_ne_nil (hm.simple c hcm).ne_nil (List.flatMap_eq_nil_iff.mp e c hcm)

/-- What is answered about two areas. -/
theorem areas {context : Context K} (hc : context.Exact) {goal test : List (SegmentEndpoints K)}
    {G T : List (Segment K)} {I E I' E' : Set (Point K)} (og : Oriented false goal G I' E')
    (ot : Oriented false test T I E) {goalBox testBox : Box K}
    (hg : IsBoxOf goalBox (I' ∪ segsPts G)) (ht : IsBoxOf testBox (I ∪ segsPts T)) :
    ∃ r, runCompound context ((State.empty.register false goal).register true test)
        (min goalBox.maxX testBox.maxX) = .ok r ∧
      (CompoundRel I (segsPts T) E I' (segsPts G) E' r ∨ (r = .overlap ∧ ¬ Neat T ∧ ¬ Neat G)) := by
  obtain ⟨m1, m2⟩ := marks_registered og.ne ot.ne
  have hf := ((Fresh.empty : (State.empty : State K).Fresh).register false og.ne).register true ot.ne
  obtain ⟨r, hr, h⟩ := Outline.compound' hc hf (.of_eq m1) (.of_eq m2) (by simpa using og.outline)
    (by simpa using ot.outline)
    (fun x hx => hg.le_maxX x (.inr hx)) (fun x hx => ht.le_maxX x (.inr hx))
  refine ⟨r, hr, ?_⟩
  rcases h.cases with h | ⟨rfl, hX⟩
  · exact .inl h
  · by_cases hn : Neat T ∨ Neat G
    · exact .inl (overlap_of_crosses ot og
        (hX.crosses og.outline.nondegenerate ot.outline.nondegenerate) hn)
    · exact .inr ⟨rfl, not_or.mp hn⟩

/-- C41: `multiregion_in_multipolygon` always answers for valid operands, and the answer is the relation
of the interiors and boundaries, except that it may be `OVERLAP` by mistake if in both operands a vertex
is in the middle of another edge. -/
theorem C41_multiregion_in_multipolygon {context : Context K} (hc : context.Exact) {a : Multiregion K}
    {m : Multipolygon K} (ha : Multiregion.Valid a) (hm : m.Valid) (na : a ≠ [])
    (nm : m.polygons ≠ []) :
    ∃ r, planar.multiregionInMultipolygon a m context = .ok r ∧
      (CompoundRel (Multiregion.interior a) (Multiregion.pts a) (Multiregion.exterior a)
          m.interior m.pts m.exterior r ∨
        (r = .overlap ∧ ¬ Neat (a.flatMap Contour.edgeList) ∧
          ¬ Neat (m.polygons.flatMap Polygon.edges))) := by
  unfold planar.multiregionInMultipolygon multipolygon.relateMultiregion
  have boxA := multiregion_box hc ha na
  have boxM := multipolygon_box hc hm nm
  simp only
  by_cases h : box.disjointWith (context.polygonsBox m.polygons) (context.contoursBox a) = true
  · refine ⟨.disjoint, by simp [h, pure, Except.pure], .inl ?_⟩
    have := box.inter_empty boxM boxA h
    rw [Set.inter_comm] at this
    exact this
  rw [if_neg h]
  obtain ⟨la, hla, oa⟩ := ha.oriented hc false
  obtain ⟨lm, hlm, om⟩ := polygons_oriented hc hm false
  rw [← segsPts_edgesOf] at boxA
  rw [← segsPts_polygonsEdges] at boxM
  obtain ⟨r, hr, h⟩ := areas hc om oa boxM boxA
  rw [segsPts_edgesOf, segsPts_polygonsEdges] at h
  refine ⟨r, ?_, h⟩
  rw [← hr]
  unfold multipolygon.toOrientedSegments
  rw [hla, hlm]
  rfl

/-- C41: `multipolygon_in_multipolygon` always answers for valid operands, and the answer is the relation
of the interiors and boundaries, except that it may be `OVERLAP` by mistake if in both operands a vertex
is in the middle of another edge. -/
theorem C41_multipolygon_in_multipolygon {context : Context K} (hc : context.Exact)
    {a m : Multipolygon K} (ha : a.Valid) (hm : m.Valid) (na : a.polygons ≠ [])
    (nm : m.polygons ≠ []) :
    ∃ r, planar.multipolygonInMultipolygon a m context = .ok r ∧
      (CompoundRel a.interior a.pts a.exterior m.interior m.pts m.exterior r ∨
        (r = .overlap ∧ ¬ Neat (a.polygons.flatMap Polygon.edges) ∧
          ¬ Neat (m.polygons.flatMap Polygon.edges))) := by
  unfold planar.multipolygonInMultipolygon multipolygon.relateMultipolygon
  have boxA := multipolygon_box hc ha na
  have boxM := multipolygon_box hc hm nm
  obtain ⟨la, hla, oa⟩ := polygons_oriented hc ha false
  obtain ⟨lm, hlm, om⟩ := polygons_oriented hc hm false
  rw [← segsPts_polygonsEdges] at boxM boxA
  obtain ⟨r, hr, h⟩ := areas hc om oa boxM boxA
  rw [segsPts_polygonsEdges, segsPts_polygonsEdges] at h
  refine ⟨r, ?_, h⟩
  rw [← hr]
  unfold multipolygon.toOrientedSegments
  rw [hla, hlm]
  rfl

theorem polygon_nonempty {g : Polygon K} (hg : g.Valid) : g.interior.Nonempty ∧ g.pts.Nonempty := by
  obtain ⟨L, -, o⟩ := hg.oriented reference.context_exact false
  obtain ⟨x, hx⟩ := hg.border.exists_mem
  exact ⟨(o.outline.inhabited (Polygon.edges_ne_nil hg)).1, x, .inl hx⟩

theorem multipolygon_nonempty {m : Multipolygon K} (hm : m.Valid) (hne : m.polygons ≠ []) :
    m.interior.Nonempty ∧ m.pts.Nonempty := by
  obtain ⟨g, hg⟩ := List.exists_mem_of_ne_nil _ hne
  obtain ⟨⟨x, hx⟩, ⟨y, hy⟩⟩ := polygon_nonempty (hm.valid g hg)
  exact ⟨⟨x, g, hg, hx⟩, ⟨y, g, hg, hy⟩⟩

/-- C41: the answer of `region_in_multipolygon` is determined by the relation of the interiors and the
boundaries. -/
theorem C41_region_in_multipolygon_iff {context : Context K} (hc : context.Exact) {a : Region K}
    {m : Multipolygon K} (ha : a.Simple) (hm : m.Valid) (nm : m.polygons ≠ []) (r : Relation) :
    planar.regionInMultipolygon a m context = .ok r ↔
      CompoundRel a.interior a.pts a.exterior m.interior m.pts m.exterior r := by
  obtain ⟨r', hr, h⟩ := C41_region_in_multipolygon hc ha hm
  obtain ⟨b1, b2, b3⟩ := multipolygon_apart hm
  obtain ⟨k1, k2⟩ := multipolygon_nonempty hm nm
  rw [hr]
  constructor
  · intro e; cases e; exact h
  · intro h'
    rw [CompoundRel.unique ha.interior_nonempty ha.exists_mem k1 k2 a.interior_pts a.interior_exterior
      b1 b2 h h']

/-- C41: if in one of the operands edges meet each other only in common endpoints then the answer of
`polygon_in_multipolygon` is determined by the relation of the interiors and the boundaries. -/
theorem C41_polygon_in_multipolygon_iff {context : Context K} (hc : context.Exact) {a : Polygon K}
    {m : Multipolygon K} (ha : a.Valid) (hm : m.Valid) (nm : m.polygons ≠ [])
    (hn : Neat a.edges ∨ Neat (m.polygons.flatMap Polygon.edges)) (r : Relation) :
    planar.polygonInMultipolygon a m context = .ok r ↔
      CompoundRel a.interior a.pts a.exterior m.interior m.pts m.exterior r := by
  obtain ⟨r', hr, h | ⟨-, h⟩⟩ := C41_polygon_in_multipolygon hc ha hm
  · obtain ⟨a1, a2, a3⟩ := polygon_apart ha
    obtain ⟨n1, n2⟩ := polygon_nonempty ha
    obtain ⟨b1, b2, b3⟩ := multipolygon_apart hm
    obtain ⟨k1, k2⟩ := multipolygon_nonempty hm nm
    rw [hr]
    constructor
    · intro e; cases e; exact h
    · intro h'
      rw [CompoundRel.unique n1 n2 k1 k2 a1 a2 b1 b2 h h']
  · exact absurd hn (not_or.mpr h)

/-- C41: if in one of the operands edges meet each other only in common endpoints then the answer of
`multiregion_in_multipolygon` is determined by the relation of the interiors and the boundaries. -/
theorem C41_multiregion_in_multipolygon_iff {context : Context K} (hc : context.Exact)
    {a : Multiregion K} {m : Multipolygon K} (ha : Multiregion.Valid a) (hm : m.Valid) (na : a ≠ [])
    (nm : m.polygons ≠ [])
    (hn : Neat (a.flatMap Contour.edgeList) ∨ Neat (m.polygons.flatMap Polygon.edges)) (r : Relation) :
    planar.multiregionInMultipolygon a m context = .ok r ↔
      CompoundRel (Multiregion.interior a) (Multiregion.pts a) (Multiregion.exterior a)
        m.interior m.pts m.exterior r := by
  obtain ⟨r', hr, h | ⟨-, h⟩⟩ := C41_multiregion_in_multipolygon hc ha hm na nm
  · obtain ⟨a1, a2, a3⟩ := multiregion_apart ha
    obtain ⟨n1, n2⟩ := multiregion_nonempty ha na
    obtain ⟨b1, b2, b3⟩ := multipolygon_apart hm
    obtain ⟨k1, k2⟩ := multipolygon_nonempty hm nm
    rw [hr]
    constructor
    · intro e; cases e; exact h
    · intro h'
      rw [CompoundRel.unique n1 n2 k1 k2 a1 a2 b1 b2 h h']
  · exact absurd hn (not_or.mpr h)

/-- C41: if in one of the operands edges meet each other only in common endpoints then the answer of
`multipolygon_in_multipolygon` is determined by the relation of the interiors and the boundaries. -/
theorem C41_multipolygon_in_multipolygon_iff {context : Context K} (hc : context.Exact)
    {a m : Multipolygon K} (ha : a.Valid) (hm : m.Valid) (na : a.polygons ≠ [])
    (nm : m.polygons ≠ [])
    (hn : Neat (a.polygons.flatMap Polygon.edges) ∨ Neat (m.polygons.flatMap Polygon.edges))
    (r : Relation) :
    planar.multipolygonInMultipolygon a m context = .ok r ↔
      CompoundRel a.interior a.pts a.exterior m.interior m.pts m.exterior r := by
  obtain ⟨r', hr, h | ⟨-, h⟩⟩ := C41_multipolygon_in_multipolygon hc ha hm na nm
  · obtain ⟨a1, a2, a3⟩ := multipolygon_apart ha
    obtain ⟨n1, n2⟩ := multipolygon_nonempty ha na
    obtain ⟨b1, b2, b3⟩ := multipolygon_apart hm
    obtain ⟨k1, k2⟩ := multipolygon_nonempty hm nm
    rw [hr]
    constructor
    · intro e; cases e; exact h
    · intro h'
      rw [CompoundRel.unique n1 n2 k1 k2 a1 a2 b1 b2 h h']
  · exact absurd hn (not_or.mpr h)

/-! ### examples -/

/-- A square with a square hole. -/
def examplePolygon : Polygon ℚ :=
  ⟨⟨[⟨0, 0⟩, ⟨6, 0⟩, ⟨6, 6⟩, ⟨0, 6⟩]⟩, [⟨[⟨2, 2⟩, ⟨2, 4⟩, ⟨4, 4⟩, ⟨4, 2⟩]⟩]⟩

/-- The square with a hole and a triangle which touches it. -/
def exampleMultipolygon : Multipolygon ℚ :=
  ⟨[examplePolygon, ⟨⟨[⟨6, 0⟩, ⟨9, 0⟩, ⟨9, 3⟩]⟩, []⟩]⟩

theorem examplePolygon_valid : examplePolygon.Valid := Polygon.valid_of_check (by decide +kernel)

theorem exampleMultipolygon_valid : exampleMultipolygon.Valid :=
  Multipolygon.valid_of_check (by decide +kernel)

theorem examplePolygon_neat : Neat examplePolygon.edges := neat_of_check (by decide +kernel)

theorem exampleMultipolygon_neat : Neat (exampleMultipolygon.polygons.flatMap Polygon.edges) :=
  neat_of_check (by decide +kernel)

/-- A set which lacks a point is not covered. -/
theorem not_covered {S : Set (Point ℚ)} {l : List (Segment ℚ)} {p : Point ℚ} (hp : p ∈ S)
    (h : ∀ u ∈ l, cross u.start u.finish p ≠ 0 ∨ p < u.lo ∨ u.hi < p) : ¬ S ⊆ segsPts l := by
  intro hs
  obtain ⟨u, hu, h1⟩ := hs hp
  have h2 := (Segment.mem_pts_iff _ _).mp h1
  rcases h u hu with h | h | h
  · exact h h2.1
  · exact absurd h2.2.1 (not_le.mpr h)
  · exact absurd h2.2.2 (not_le.mpr h)

/-- A segment inside of the hole and a segment inside of the polygon. -/
theorem C39_example :
    LinearCompoundRel (segsPts [⟨⟨3, 3⟩, ⟨3, (7 : ℚ) / 2⟩⟩, ⟨⟨1, 1⟩, ⟨5, 1⟩⟩]) examplePolygon.interior
      examplePolygon.pts examplePolygon.exterior .cross :=
  (C39_multisegment_in_polygon_iff reference.context_exact
    (a := ⟨[⟨⟨3, 3⟩, ⟨3, (7 : ℚ) / 2⟩⟩, ⟨⟨1, 1⟩, ⟨5, 1⟩⟩]⟩) (by simp)
    (segmentsValid_of_check (by decide +kernel)) examplePolygon_valid examplePolygon_neat
    (not_covered (p := ⟨0, 0⟩) (.inl ⟨⟨⟨0, 0⟩, ⟨6, 0⟩⟩, by decide +kernel, Segment.start_mem _⟩) (by decide +kernel)) _).mp
    (by decide +kernel)

/-- A triangle around the hole, a segment on both boundaries and segments in the triangle. -/
theorem C40_example :
    LinearCompoundRel (⟨⟨1, 0⟩, ⟨8, 0⟩⟩ : Segment ℚ).pts exampleMultipolygon.interior
      exampleMultipolygon.pts exampleMultipolygon.exterior .component ∧
    LinearCompoundRel (⟨[⟨1, 1⟩, ⟨5, 1⟩, ⟨5, 5⟩]⟩ : Contour ℚ).pts exampleMultipolygon.interior
      exampleMultipolygon.pts exampleMultipolygon.exterior .cross ∧
    LinearCompoundRel (segsPts [⟨⟨8, 1⟩, ⟨9, 1⟩⟩, ⟨⟨1, 1⟩, ⟨2, 2⟩⟩]) exampleMultipolygon.interior
      exampleMultipolygon.pts exampleMultipolygon.exterior .enclosed := by
  refine ⟨?_, ?_, ?_⟩
  · exact (C40_segment_in_multipolygon_iff reference.context_exact
      (by unfold Segment.Nondegenerate; decide +kernel) exampleMultipolygon_valid
      exampleMultipolygon_neat _).mp (by decide +kernel)
  · exact (C40_contour_in_multipolygon_iff reference.context_exact
      (Contour.simple_of_check (by decide +kernel)) exampleMultipolygon_valid
      exampleMultipolygon_neat _).mp (by decide +kernel)
  · refine (C40_multisegment_in_multipolygon_iff reference.context_exact
      (a := ⟨[⟨⟨8, 1⟩, ⟨9, 1⟩⟩, ⟨⟨1, 1⟩, ⟨2, 2⟩⟩]⟩) (by simp)
      (segmentsValid_of_check (by decide +kernel)) exampleMultipolygon_valid exampleMultipolygon_neat
      (fun g hg => ?_) _).mp (by decide +kernel)
    simp only [exampleMultipolygon, List.mem_cons, List.not_mem_nil, or_false] at hg
    rcases hg with rfl | rfl
    · exact not_covered (p := ⟨0, 0⟩) (.inl ⟨⟨⟨0, 0⟩, ⟨6, 0⟩⟩, by decide +kernel, Segment.start_mem _⟩) (by decide +kernel)
    · exact not_covered (p := ⟨6, 0⟩) (.inl ⟨⟨⟨6, 0⟩, ⟨9, 0⟩⟩, by decide +kernel, Segment.start_mem _⟩) (by decide +kernel)

/-- The hole, the polygon and the polygons. -/
theorem C41_example :
    CompoundRel (⟨[⟨2, 2⟩, ⟨4, 2⟩, ⟨4, 4⟩, ⟨2, 4⟩]⟩ : Contour ℚ).interior
      (⟨[⟨2, 2⟩, ⟨4, 2⟩, ⟨4, 4⟩, ⟨2, 4⟩]⟩ : Contour ℚ).pts
      (⟨[⟨2, 2⟩, ⟨4, 2⟩, ⟨4, 4⟩, ⟨2, 4⟩]⟩ : Contour ℚ).exterior exampleMultipolygon.interior
      exampleMultipolygon.pts exampleMultipolygon.exterior .touch ∧
    CompoundRel examplePolygon.interior examplePolygon.pts examplePolygon.exterior
      exampleMultipolygon.interior exampleMultipolygon.pts exampleMultipolygon.exterior .component ∧
    CompoundRel (Multiregion.interior exampleMultiregion) (Multiregion.pts exampleMultiregion)
      (Multiregion.exterior exampleMultiregion) exampleMultipolygon.interior exampleMultipolygon.pts
      exampleMultipolygon.exterior .overlap ∧
    CompoundRel exampleMultipolygon.interior exampleMultipolygon.pts exampleMultipolygon.exterior
      exampleMultipolygon.interior exampleMultipolygon.pts exampleMultipolygon.exterior .equal :=
  ⟨(C41_region_in_multipolygon_iff reference.context_exact (Contour.simple_of_check (by decide +kernel))
      exampleMultipolygon_valid (by decide +kernel) _).mp (by decide +kernel),
    (C41_polygon_in_multipolygon_iff reference.context_exact examplePolygon_valid
      exampleMultipolygon_valid (by decide +kernel) (.inl examplePolygon_neat) _).mp (by decide +kernel),
    (C41_multiregion_in_multipolygon_iff reference.context_exact exampleMultiregion_valid
      exampleMultipolygon_valid (by decide +kernel) (by decide +kernel) (.inl exampleMultiregion_neat)
      _).mp (by decide +kernel),
    (C41_multipolygon_in_multipolygon_iff reference.context_exact exampleMultipolygon_valid
      exampleMultipolygon_valid (by decide +kernel) (by decide +kernel) (.inl exampleMultipolygon_neat)
      _).mp (by decide +kernel)⟩

/-! ### counterexamples -/

/-- Equal regions are equal as sets of points. -/
theorem same_region {a b : Contour K} (ha : a.Simple) (hb : b.Simple)
    (h : planar.regionInRegion a b reference.context = .ok .equal) :
    a.interior = b.interior ∧ a.pts = b.pts ∧ a.exterior = b.exterior := by
  obtain ⟨h1, h2⟩ := (C32_region_in_region_iff reference.context_exact ha hb _).mp h
  refine ⟨h1, h2, ?_⟩
  ext x
  constructor
  · intro hx
    refine (Contour.cover (c := b) (h2 ▸ hx.1)).resolve_left fun h' => ?_
    exact Contour.not_both (h1.symm ▸ h' : x ∈ a.interior) hx
  · intro hx
    refine (Contour.cover (c := a) (h2.symm ▸ hx.1)).resolve_left fun h' => ?_
    exact Contour.not_both (h1 ▸ h' : x ∈ b.interior) hx

/-- A square with a triangular hole whose vertex is in the middle of an edge. -/
def exampleTouchedBorder : Polygon ℚ :=
  ⟨⟨[⟨0, 0⟩, ⟨4, 0⟩, ⟨4, 4⟩, ⟨0, 4⟩]⟩, [⟨[⟨2, 4⟩, ⟨1, 2⟩, ⟨3, 2⟩]⟩]⟩

/-- The same polygon, the point where the hole touches the border is a vertex. -/
def exampleTouchedBorder' : Polygon ℚ :=
  ⟨⟨[⟨0, 0⟩, ⟨4, 0⟩, ⟨4, 4⟩, ⟨2, 4⟩, ⟨0, 4⟩]⟩, [⟨[⟨2, 4⟩, ⟨1, 2⟩, ⟨3, 2⟩]⟩]⟩

theorem exampleTouchedBorder_same : exampleTouchedBorder'.interior = exampleTouchedBorder.interior ∧
    exampleTouchedBorder'.pts = exampleTouchedBorder.pts ∧
    exampleTouchedBorder'.exterior = exampleTouchedBorder.exterior := by
  obtain ⟨h1, h2, h3⟩ := same_region (a := exampleTouchedBorder'.border)
    (b := exampleTouchedBorder.border) (Contour.simple_of_check (by decide +kernel))
    (Contour.simple_of_check (by decide +kernel)) (by decide +kernel)
  unfold Polygon.interior Polygon.pts Polygon.exterior
  rw [h1, h2, h3]
  exact ⟨rfl, rfl, rfl⟩

/-- C39: the second exception is real, a segment from the hole to the outside is answered `CROSS`. -/
theorem C39_counterexample :
    exampleTouchedBorder.Valid ∧
      planar.multisegmentInPolygon ⟨[⟨⟨2, 3⟩, ⟨2, 5⟩⟩]⟩ exampleTouchedBorder (reference.context : Context ℚ)
        = .ok .cross ∧
      LinearCompoundRel (segsPts [⟨⟨2, 3⟩, ⟨2, 5⟩⟩]) exampleTouchedBorder.interior
        exampleTouchedBorder.pts exampleTouchedBorder.exterior .touch := by
  refine ⟨Polygon.valid_of_check (by decide +kernel), by decide +kernel, ?_⟩
  obtain ⟨h1, h2, h3⟩ := exampleTouchedBorder_same
  rw [← h1, ← h2, ← h3]
  exact (C39_multisegment_in_polygon_iff reference.context_exact (a := ⟨[⟨⟨2, 3⟩, ⟨2, 5⟩⟩]⟩) (by simp)
    (segmentsValid_of_check (by decide +kernel)) (Polygon.valid_of_check (by decide +kernel))
    (neat_of_check (by decide +kernel))
    (not_covered (p := ⟨0, 0⟩) (.inl ⟨⟨⟨0, 0⟩, ⟨4, 0⟩⟩, by decide +kernel, Segment.start_mem _⟩) (by decide +kernel)) _).mp
    (by decide +kernel)

theorem multipolygon_single (g : Polygon K) : Multipolygon.interior ⟨[g]⟩ = g.interior ∧
    Multipolygon.pts ⟨[g]⟩ = g.pts ∧ Multipolygon.exterior ⟨[g]⟩ = g.exterior := by
  refine ⟨?_, ?_, ?_⟩ <;> ext x
  · simp [Multipolygon.interior]
  · simp [Multipolygon.pts]
  · simp [Multipolygon.exterior]

/-- C40: the exception is real, a segment without inner points is answered `CROSS`. -/
theorem C40_counterexample :
    Multipolygon.Valid ⟨[exampleTouchedBorder]⟩ ∧
      planar.segmentInMultipolygon ⟨⟨2, 3⟩, ⟨2, 5⟩⟩ ⟨[exampleTouchedBorder]⟩
        (reference.context : Context ℚ) = .ok .cross ∧
      LinearCompoundRel (⟨⟨2, 3⟩, ⟨2, 5⟩⟩ : Segment ℚ).pts
        (Multipolygon.interior ⟨[exampleTouchedBorder]⟩) (Multipolygon.pts ⟨[exampleTouchedBorder]⟩)
        (Multipolygon.exterior ⟨[exampleTouchedBorder]⟩) .touch := by
  refine ⟨Multipolygon.valid_of_check (by decide +kernel), by decide +kernel, ?_⟩
  obtain ⟨h1, h2, h3⟩ := multipolygon_single exampleTouchedBorder
  rw [h1, h2, h3, ← segsPts_singleton]
  exact C39_counterexample.2.2

/-- A polygon whose hole touches an edge of the border. -/
def exampleSplit : Polygon ℚ :=
  ⟨⟨[⟨-5, -10⟩, ⟨20, -10⟩, ⟨20, 10⟩, ⟨5, 10⟩]⟩, [⟨[⟨0, 0⟩, ⟨8, -4⟩, ⟨20, 0⟩, ⟨8, 4⟩]⟩]⟩

/-- The same polygon, the points where the hole touches the border are vertices. -/
def exampleSplit' : Polygon ℚ :=
  ⟨⟨[⟨-5, -10⟩, ⟨20, -10⟩, ⟨20, 0⟩, ⟨20, 10⟩, ⟨5, 10⟩, ⟨0, 0⟩]⟩,
    [⟨[⟨0, 0⟩, ⟨8, -4⟩, ⟨20, 0⟩, ⟨8, 4⟩]⟩]⟩

theorem exampleSplit_same : exampleSplit'.interior = exampleSplit.interior ∧
    exampleSplit'.pts = exampleSplit.pts ∧ exampleSplit'.exterior = exampleSplit.exterior := by
  obtain ⟨h1, h2, h3⟩ := same_region (a := exampleSplit'.border)
    (b := exampleSplit.border) (Contour.simple_of_check (by decide +kernel))
    (Contour.simple_of_check (by decide +kernel)) (by decide +kernel)
  unfold Polygon.interior Polygon.pts Polygon.exterior
  rw [h1, h2, h3]
  exact ⟨rfl, rfl, rfl⟩

/-- Two polygons around it. -/
def exampleAround : Multipolygon ℚ :=
  ⟨[⟨⟨[⟨-12, 0⟩, ⟨22, 0⟩, ⟨22, 12⟩, ⟨-12, 12⟩]⟩, [⟨[⟨0, 0⟩, ⟨5, 10⟩, ⟨-5, 10⟩]⟩]⟩,
    ⟨⟨[⟨0, 0⟩, ⟨-5, -10⟩, ⟨20, -10⟩, ⟨20, 0⟩, ⟨8, -3⟩]⟩, []⟩]⟩

/-- C41: the exception is real, a polygon without outer points is answered `OVERLAP`. -/
theorem C41_counterexample :
    exampleSplit.Valid ∧ exampleAround.Valid ∧ Multipolygon.Valid ⟨[exampleSplit]⟩ ∧
      planar.polygonInMultipolygon exampleSplit exampleAround (reference.context : Context ℚ)
        = .ok .overlap ∧
      planar.multipolygonInMultipolygon ⟨[exampleSplit]⟩ exampleAround (reference.context : Context ℚ)
        = .ok .overlap ∧
      CompoundRel exampleSplit.interior exampleSplit.pts exampleSplit.exterior exampleAround.interior
        exampleAround.pts exampleAround.exterior .enclosed ∧
      CompoundRel (Multipolygon.interior ⟨[exampleSplit]⟩) (Multipolygon.pts ⟨[exampleSplit]⟩)
        (Multipolygon.exterior ⟨[exampleSplit]⟩) exampleAround.interior exampleAround.pts
        exampleAround.exterior .enclosed := by
  have hv : exampleAround.Valid := Multipolygon.valid_of_check (by decide +kernel)
  have key : CompoundRel exampleSplit.interior exampleSplit.pts exampleSplit.exterior
      exampleAround.interior exampleAround.pts exampleAround.exterior .enclosed := by
    obtain ⟨h1, h2, h3⟩ := exampleSplit_same
    rw [← h1, ← h2, ← h3]
    exact (C41_polygon_in_multipolygon_iff reference.context_exact
      (Polygon.valid_of_check (by decide +kernel)) hv (by decide +kernel)
      (.inl (neat_of_check (by decide +kernel))) _).mp (by decide +kernel)
  refine ⟨Polygon.valid_of_check (by decide +kernel), hv, Multipolygon.valid_of_check (by decide +kernel),
    by decide +kernel, by decide +kernel, key, ?_⟩
  obtain ⟨h1, h2, h3⟩ := multipolygon_single exampleSplit
  rw [h1, h2, h3]
  exact key

/-- Two regions, a vertex of the second one is in the middle of an edge of the first one. -/
def examplePair : Multiregion ℚ :=
  [⟨[⟨-5, -10⟩, ⟨30, -10⟩, ⟨30, 20⟩, ⟨6, 20⟩, ⟨4, 12⟩, ⟨5, 10⟩]⟩,
    ⟨[⟨0, 0⟩, ⟨0, 10⟩, ⟨4, 12⟩, ⟨2, 20⟩, ⟨-20, 20⟩, ⟨-20, -3⟩]⟩]

/-- The same regions, with the common point as a vertex of both. -/
def examplePair' : Multiregion ℚ :=
  [⟨[⟨-5, -10⟩, ⟨30, -10⟩, ⟨30, 20⟩, ⟨6, 20⟩, ⟨4, 12⟩, ⟨5, 10⟩, ⟨0, 0⟩]⟩,
    ⟨[⟨0, 0⟩, ⟨0, 10⟩, ⟨4, 12⟩, ⟨2, 20⟩, ⟨-20, 20⟩, ⟨-20, -3⟩]⟩]

theorem examplePair_same : Multiregion.interior examplePair' = Multiregion.interior examplePair ∧
    Multiregion.pts examplePair' = Multiregion.pts examplePair ∧
    Multiregion.exterior examplePair' = Multiregion.exterior examplePair := by
  obtain ⟨h1, h2, h3⟩ := same_region
    (a := ⟨[⟨-5, -10⟩, ⟨30, -10⟩, ⟨30, 20⟩, ⟨6, 20⟩, ⟨4, 12⟩, ⟨5, 10⟩, ⟨0, 0⟩]⟩)
    (b := (⟨[⟨-5, -10⟩, ⟨30, -10⟩, ⟨30, 20⟩, ⟨6, 20⟩, ⟨4, 12⟩, ⟨5, 10⟩]⟩ : Contour ℚ))
    (Contour.simple_of_check (by decide +kernel))
    (Contour.simple_of_check (by decide +kernel)) (by decide +kernel)
  refine ⟨?_, ?_, ?_⟩ <;> ext x
  · simp only [Multiregion.interior, examplePair, examplePair', List.mem_cons, List.not_mem_nil,
      or_false, exists_eq_or_imp, exists_eq_left, Set.mem_ofPred_eq, h1]
  · simp only [Multiregion.pts, examplePair, examplePair', List.mem_cons, List.not_mem_nil,
      or_false, exists_eq_or_imp, exists_eq_left, Set.mem_ofPred_eq, h2]
  · simp only [Multiregion.exterior, examplePair, examplePair', List.mem_cons, List.not_mem_nil,
      or_false, forall_eq_or_imp, forall_eq, Set.mem_ofPred_eq, h3]

/-- A polygon which is a part of the regions. -/
def exampleCovered : Multipolygon ℚ :=
  ⟨[⟨⟨[⟨-12, 0⟩, ⟨22, 0⟩, ⟨22, 12⟩, ⟨-12, 12⟩]⟩, [⟨[⟨0, 0⟩, ⟨5, 10⟩, ⟨4, 12⟩, ⟨-1, 10⟩]⟩]⟩]⟩

/-- C41: the exception is real, a multiregion which covers the multipolygon is answered `OVERLAP`. -/
theorem C41_multiregion_counterexample :
    Multiregion.Valid examplePair ∧ exampleCovered.Valid ∧
      planar.multiregionInMultipolygon examplePair exampleCovered (reference.context : Context ℚ)
        = .ok .overlap ∧
      CompoundRel (Multiregion.interior examplePair) (Multiregion.pts examplePair)
        (Multiregion.exterior examplePair) exampleCovered.interior exampleCovered.pts
        exampleCovered.exterior .encloses := by
  have hv : exampleCovered.Valid := Multipolygon.valid_of_check (by decide +kernel)
  refine ⟨Multiregion.valid_of_check (by decide +kernel), hv, by decide +kernel, ?_⟩
  obtain ⟨h1, h2, h3⟩ := examplePair_same
  rw [← h1, ← h2, ← h3]
  exact (C41_multiregion_in_multipolygon_iff reference.context_exact
    (Multiregion.valid_of_check (by decide +kernel)) hv (by decide +kernel) (by decide +kernel)
    (.inl (neat_of_check (by decide +kernel))) _).mp (by decide +kernel)

end Orient.Props
