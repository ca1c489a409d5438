import Verif.Props.MultipolygonRelations

/-! C73: what the functions which sweep over the edges answer, without exceptions.

C34, C37, C39, C40 and C41 list answers which may be wrong.  Here it is said when they are. -/

set_option linter.unusedSectionVars false

namespace Orient.Props

variable {K : Type} [Field K] [LinearOrder K] [IsStrictOrderedRing K]

open Segment State eventsQueue

/-! ### the specified answers exclude each other -/

theorem CompoundAnswer.only {X : Prop} {I B E I' B' E' : Set (Point K)} (hI : I.Nonempty)
    (hB : B.Nonempty) (hI' : I'.Nonempty) (hB' : B'.Nonempty) (h1 : I ∩ B = ∅) (h2 : I ∩ E = ∅)
    (h1' : I' ∩ B' = ∅) (h2' : I' ∩ E' = ∅) {r : Relation} (h : CompoundAnswer X I B E I' B' E' r)
    (q : Relation) : CompoundAnswer X I B E I' B' E' q ↔ q = r := by
  refine ⟨fun h' => ?_, fun e => e ▸ h⟩
  by_cases hX : X
  · rw [h.1 hX, h'.1 hX]
  · exact CompoundRel.unique hI hB hI' hB' h1 h2 h1' h2' (h'.2 hX) (h.2 hX)

theorem LinearAnswer.only {X Y : Prop} {S I B E : Set (Point K)} (hS : S.Nonempty) (h1 : I ∩ B = ∅)
    (h2 : I ∩ E = ∅) (h3 : B ∩ E = ∅) {r : Relation} (h : LinearAnswer X Y S I B E r) (q : Relation) :
    LinearAnswer X Y S I B E q ↔ q = r := by
  refine ⟨fun h' => ?_, fun e => e ▸ h⟩
  by_cases hX : X
  · rw [h.1 hX, h'.1 hX]
  · by_cases hY : Y ∧ (S ∩ I).Nonempty ∧ (S ∩ E).Nonempty
    · rw [h.2.1 hX hY.1 hY.2.1 hY.2.2, h'.2.1 hX hY.1 hY.2.1 hY.2.2]
    · exact LinearCompoundRel.unique hS h1 h2 h3 (h'.2.2 hX hY) (h.2.2 hX hY)

theorem CrossAnswer.only {X : Prop} {S I B E : Set (Point K)} (hS : S.Nonempty) (h1 : I ∩ B = ∅)
    (h2 : I ∩ E = ∅) (h3 : B ∩ E = ∅) {r : Relation} (h : CrossAnswer X S I B E r) (q : Relation) :
    CrossAnswer X S I B E q ↔ q = r := by
  refine ⟨fun h' => ?_, fun e => e ▸ h⟩
  by_cases hX : X
  · rw [h.1 hX, h'.1 hX]
  · exact LinearCompoundRel.unique hS h1 h2 h3 (h'.2 hX) (h.2 hX)

theorem LinearAnswer.cross {X Y : Prop} {S I B E : Set (Point K)} {r : Relation}
    (h : LinearAnswer X Y S I B E r) (hY : ¬ (Y ∧ (S ∩ I).Nonempty)) : CrossAnswer X S I B E r :=
  ⟨h.1, fun hX => h.2.2 hX fun h' => hY ⟨h'.1, h'.2.1⟩⟩

/-- If a linear geometry is outside of an area then the answer is `DISJOINT`. -/
theorem LinearAnswer.disjoint {Y : Prop} {G T : List (Segment K)} {I E : Set (Point K)}
    (h : segsPts T ⊆ E) (h2 : I ∩ E = ∅) (h3 : segsPts G ∩ E = ∅) :
    LinearAnswer (EdgesCross G T) Y (segsPts T) I (segsPts G) E .disjoint := by
  refine ⟨?_, ?_, fun _ _ => h⟩
  · rintro ⟨u, hu, v, hv, p, hp, -⟩
    exact absurd ⟨⟨v, hv, hp.2⟩, h ⟨u, hu, hp.1⟩⟩ (Set.eq_empty_iff_forall_notMem.mp h3 p)
  · rintro - - ⟨x, x1, x2⟩
    exact absurd ⟨x2, h x1⟩ (Set.eq_empty_iff_forall_notMem.mp h2 x)

/-- If areas have no common points then the answer is `DISJOINT`. -/
theorem CompoundAnswer.disjoint {G T : List (Segment K)} {I E I' E' : Set (Point K)}
    (h : (I ∪ segsPts T) ∩ (I' ∪ segsPts G) = ∅) :
    CompoundAnswer (EdgesCross G T) I (segsPts T) E I' (segsPts G) E' .disjoint := by
  refine ⟨?_, fun _ => h⟩
  rintro ⟨u, hu, v, hv, p, hp, -⟩
  exact absurd ⟨.inr ⟨u, hu, hp.1⟩, .inr ⟨v, hv, hp.2⟩⟩ (Set.eq_empty_iff_forall_notMem.mp h p)

theorem segsPts_nonempty {l : List (Segment K)} (h : l ≠ []) : (segsPts l).Nonempty := by
  obtain ⟨u, hu⟩ := List.exists_mem_of_ne_nil _ h
  exact ⟨u.start, u, hu, u.start_mem⟩

/-- Sets with a common point are not separated. -/
theorem not_boxesApart {A B : Set (Point K)} {x : Point K} (h1 : x ∈ A) (h2 : x ∈ B) :
    ¬ BoxesApart A B := by
  rintro (h | h | h | h) <;> exact lt_irrefl _ (h x h1 x h2)

/-! ### when answers are wrong -/

/-- The answer about two areas is right unless edges cross and the areas do not overlap. -/
theorem C73_areas_right_iff {X : Prop} {I B E I' B' E' : Set (Point K)} {r : Relation}
    (h : CompoundAnswer X I B E I' B' E' r) :
    CompoundRel I B E I' B' E' r ↔ (X → CompoundRel I B E I' B' E' .overlap) := by
  refine ⟨fun h' hX => h.1 hX ▸ h', fun h' => ?_⟩
  by_cases hX : X
  · exact h.1 hX ▸ h' hX
  · exact h.2 hX

/-- The answer about a linear geometry is right unless edges cross and there are no inner or no outer
points, or edges do not cross, the boundary is contained and there are inner and outer points. -/
theorem C73_linear_right_iff {X Y : Prop} {S I B E : Set (Point K)} {r : Relation}
    (h : LinearAnswer X Y S I B E r) :
    LinearCompoundRel S I B E r ↔ (X → (S ∩ I).Nonempty ∧ (S ∩ E).Nonempty) ∧
      (¬ X → ¬ (Y ∧ (S ∩ I).Nonempty ∧ (S ∩ E).Nonempty)) := by
  refine ⟨fun h' => ⟨fun hX => ?_, fun hX hY => ?_⟩, fun h' => ?_⟩
  · rw [h.1 hX] at h'
    exact h'
  · rw [h.2.1 hX hY.1 hY.2.1 hY.2.2] at h'
    obtain ⟨x, hx⟩ := hY.2.1
    exact Set.eq_empty_iff_forall_notMem.mp h'.1 x hx
  · by_cases hX : X
    · rw [h.1 hX]
      exact h'.1 hX
    · exact h.2.2 hX (h'.2 hX)

/-- The answer about a segment or a contour is right unless edges cross and there are no inner or no outer
points. -/
theorem C73_cross_right_iff {X : Prop} {S I B E : Set (Point K)} {r : Relation}
    (h : CrossAnswer X S I B E r) :
    LinearCompoundRel S I B E r ↔ (X → (S ∩ I).Nonempty ∧ (S ∩ E).Nonempty) := by
  refine ⟨fun h' hX => ?_, fun h' => ?_⟩
  · rw [h.1 hX] at h'
    exact h'
  · by_cases hX : X
    · rw [h.1 hX]
      exact h' hX
    · exact h.2 hX

/-! ### regions -/

/-- C73: `multisegment_in_region` answers `CROSS` if edges of the region and segments cross, `TOUCH` if
they do not, the multisegment contains the whole boundary of the region and it has inner and outer points,
and the relation of the multisegment to the interior, the boundary and the exterior otherwise. -/
theorem C73_multisegment_in_region {context : Context K} (hc : context.Exact) {a : Multisegment K}
    {b : Region K} (ha : a.segments ≠ []) (va : SegmentsValid a.segments) (hb : b.Simple) :
    ∃ r, planar.multisegmentInRegion a b context = .ok r ∧
      ∀ q, LinearAnswer (EdgesCross b.edgeList a.segments) (b.pts ⊆ segsPts a.segments)
        (segsPts a.segments) b.interior b.pts b.exterior q ↔ q = r := by
  suffices h : ∃ r, planar.multisegmentInRegion a b context = .ok r ∧
      LinearAnswer (EdgesCross b.edgeList a.segments) (b.pts ⊆ segsPts a.segments)
        (segsPts a.segments) b.interior b.pts b.exterior r by
    obtain ⟨r, hr, h⟩ := h
    exact ⟨r, hr, LinearAnswer.only (segsPts_nonempty ha) b.interior_pts b.interior_exterior
      b.exterior_pts h⟩
  unfold planar.multisegmentInRegion region.relateMultisegment
  have boxA := hc.segmentsBox _ ha
  have boxB := hc.contourBox b hb.ne_nil
  simp only
  by_cases h : box.disjointWith (context.segmentsBox a.segments) (context.contourBox b) = true
  · refine ⟨.disjoint, by simp [h, pure, Except.pure],
      LinearAnswer.disjoint (G := b.edgeList) ?_ b.interior_exterior b.exterior_pts⟩
    have := box.inter_empty boxA boxB.interior h
    intro x hx
    rw [Set.eq_empty_iff_forall_notMem] at this
    have hn := this x
    rcases Contour.cover (c := b) (p := x) fun hm => hn ⟨hx, .inr hm⟩ with h | h
    · exact absurd ⟨hx, .inl h⟩ hn
    · exact h
  rw [if_neg h]
  obtain ⟨lb, hlb, nb, ob⟩ := hb.oriented hc
  have na := (matches_segments a).ne va.1
  obtain ⟨m1, m2⟩ := marks_registered nb na
  have hf := ((Fresh.empty : (State.empty : State K).Fresh).register false nb).register true na
  obtain ⟨r, hr, h⟩ := Outline.linearCompound' hc hf (T := a.segments) (.of_eq m1) (by
      rw [m2, map_marked_fst]
      unfold multisegment.toSegmentsEndpoints
      rw [List.map_map]
      exact .of_eq rfl) ob va.2 (Contour.edgeList_ne_nil hb.ne_nil) boxB.le_maxX boxA.le_maxX
  refine ⟨r, ?_, h⟩
  rw [← hr]
  unfold region.toOrientedSegments
  rw [hlb, min_comm]
  rfl

/-! ### multiregions -/

/-- What is answered about segments and a multiregion. -/
theorem linear_in_multiregion' {context : Context K} (hc : context.Exact) {m : Multiregion K}
    (hm : Multiregion.Valid m) {test : List (SegmentEndpoints K)} {T : List (Segment K)}
    (pT : (test.map sorted).Perm (T.map Segment.up)) (ne : ∀ e ∈ test, e.1 ≠ e.2)
    (vT : SegmentsValid T) {testBox : Box K} (hb : IsBoxOf testBox (segsPts T)) :
    ∃ r, (do
        let (_, registered) ← registerParts context.contourBox
          (fun region => Orient.region.toOrientedSegments region context) testBox (.ok test) m true none
        match registered with
        | none => return .disjoint
        | some (maxX, s) => runLinearCompound context s (min testBox.maxX maxX) : Py Relation) = .ok r ∧
      LinearAnswer (EdgesCross (m.flatMap Contour.edgeList) T)
        (∀ c ∈ m, ¬ BoxesApart (segsPts T) (Contour.interior c ∪ Contour.pts c) →
          Contour.pts c ⊆ segsPts T)
        (segsPts T) (Multiregion.interior m) (Multiregion.pts m) (Multiregion.exterior m) r := by
  obtain ⟨r, hr, h⟩ := (hm.parts hc).linearCompound' hc pT ne vT.2 hb
  have e := segsPts_edgesOf m
  unfold edgesOf at e
  rw [e] at h
  exact ⟨r, hr, h⟩

/-- C73: `multisegment_in_multiregion` answers `CROSS` if edges of the regions and segments cross, `TOUCH`
if they do not, the multisegment contains the whole boundary of each region whose bounding box meets its
bounding box and it has inner and outer points, and the relation of the multisegment to the interior, the
boundary and the exterior otherwise. -/
theorem C73_multisegment_in_multiregion {context : Context K} (hc : context.Exact) {a : Multisegment K}
    {m : Multiregion K} (ha : a.segments ≠ []) (va : SegmentsValid a.segments)
    (hm : Multiregion.Valid m) :
    ∃ r, planar.multisegmentInMultiregion a m context = .ok r ∧
      ∀ q, LinearAnswer (EdgesCross (m.flatMap Contour.edgeList) a.segments)
        (∀ c ∈ m, ¬ BoxesApart (segsPts a.segments) (Contour.interior c ∪ Contour.pts c) →
          Contour.pts c ⊆ segsPts a.segments)
        (segsPts a.segments) (Multiregion.interior m) (Multiregion.pts m) (Multiregion.exterior m) q ↔
          q = r := by
  unfold planar.multisegmentInMultiregion multiregion.relateMultisegment
    multiregion.relateMultisegmentBoxed
  obtain ⟨r, hr, h⟩ := linear_in_multiregion' hc hm (T := a.segments)
    (test := multisegment.toSegmentsEndpoints a) (.of_eq (by
      unfold multisegment.toSegmentsEndpoints
      rw [List.map_map]
      rfl)) ((matches_segments a).ne va.1) va (hc.segmentsBox _ ha)
  obtain ⟨h1, h2, h3⟩ := multiregion_apart hm
  exact ⟨r, hr, LinearAnswer.only (segsPts_nonempty ha) h1 h2 h3 h⟩

/-- C73: `segment_in_multiregion` answers `CROSS` if the segment and an edge of a region cross, and the
relation of the segment to the interior, the boundary and the exterior otherwise. -/
theorem C73_segment_in_multiregion {context : Context K} (hc : context.Exact) {a : Segment K}
    {m : Multiregion K} (ha : a.Nondegenerate) (hm : Multiregion.Valid m) :
    ∃ r, planar.segmentInMultiregion a m context = .ok r ∧
      ∀ q, CrossAnswer (EdgesCross (m.flatMap Contour.edgeList) [a]) a.pts (Multiregion.interior m)
        (Multiregion.pts m) (Multiregion.exterior m) q ↔ q = r := by
  unfold planar.segmentInMultiregion multiregion.relateSegment multiregion.relateMultisegmentBoxed
  have va : SegmentsValid [a] := ⟨by simpa using ha, List.pairwise_singleton _ _⟩
  obtain ⟨r, hr, h⟩ := linear_in_multiregion' hc hm (T := [a])
    (test := multisegment.toSegmentsEndpoints ⟨[a]⟩) (.of_eq rfl) ((matches_segments ⟨[a]⟩).ne va.1) va
    (testBox := context.segmentBox a) (by rw [segsPts_singleton]; exact hc.segmentBox a)
  rw [segsPts_singleton] at h
  obtain ⟨h1, h2, h3⟩ := multiregion_apart hm
  refine ⟨r, hr, CrossAnswer.only ⟨_, a.start_mem⟩ h1 h2 h3 (LinearAnswer.cross h ?_)⟩
  rintro ⟨hY, x, x1, c, hcm, x2⟩
  exact absurd (hY c hcm (not_boxesApart x1 (.inl x2))) ((hm.simple c hcm).not_subset_segment ha)

/-- C73: `contour_in_multiregion` answers `CROSS` if edges of the contour and of the regions cross, and
the relation of the contour to the interior, the boundary and the exterior otherwise. -/
theorem C73_contour_in_multiregion {context : Context K} (hc : context.Exact) {a : Contour K}
    {m : Multiregion K} (ha : a.Simple) (hm : Multiregion.Valid m) :
    ∃ r, planar.contourInMultiregion a m context = .ok r ∧
      ∀ q, CrossAnswer (EdgesCross (m.flatMap Contour.edgeList) a.edgeList) a.pts
        (Multiregion.interior m) (Multiregion.pts m) (Multiregion.exterior m) q ↔ q = r := by
  unfold planar.contourInMultiregion multiregion.relateContour multiregion.relateContourBoxed
  obtain ⟨r, hr, h⟩ := linear_in_multiregion' hc hm (T := a.edgeList)
    (test := contour.toEdgesEndpoints a) (.of_eq (by
      rw [← toEdgesEndpoints_ofEndpoints, List.map_map]; rfl)) ((matches_edges a).ne ha.valid.1) ha.valid
    (testBox := context.contourBox a) (hc.contourBox a ha.ne_nil)
  obtain ⟨h1, h2, h3⟩ := multiregion_apart hm
  refine ⟨r, hr, CrossAnswer.only ha.exists_mem h1 h2 h3 (LinearAnswer.cross h ?_)⟩
  rintro ⟨hY, x, x1, c, hcm, x2⟩
  have e := ha.pts_eq_of_subset (hm.simple c hcm) (hY c hcm (not_boxesApart x1 (.inl x2)))
  exact Set.eq_empty_iff_forall_notMem.mp h1 x ⟨⟨c, hcm, x2⟩, c, hcm, e ▸ x1⟩

/-! ### polygons -/

/-- C73: `multisegment_in_polygon` answers `CROSS` if edges of the polygon and segments cross, `TOUCH` if
they do not, the multisegment contains the whole boundary of the polygon and it has inner and outer points,
and the relation of the multisegment to the interior, the boundary and the exterior otherwise. -/
theorem C73_multisegment_in_polygon {context : Context K} (hc : context.Exact) {a : Multisegment K}
    {g : Polygon K} (ha : a.segments ≠ []) (va : SegmentsValid a.segments) (hg : g.Valid) :
    ∃ r, planar.multisegmentInPolygon a g context = .ok r ∧
      ∀ q, LinearAnswer (EdgesCross g.edges a.segments) (g.pts ⊆ segsPts a.segments)
        (segsPts a.segments) g.interior g.pts g.exterior q ↔ q = r := by
  obtain ⟨a1, a2, a3⟩ := polygon_apart hg
  suffices h : ∃ r, planar.multisegmentInPolygon a g context = .ok r ∧
      LinearAnswer (EdgesCross g.edges a.segments) (g.pts ⊆ segsPts a.segments)
        (segsPts a.segments) g.interior g.pts g.exterior r by
    obtain ⟨r, hr, h⟩ := h
    exact ⟨r, hr, LinearAnswer.only (segsPts_nonempty ha) a1 a2 a3 h⟩
  unfold planar.multisegmentInPolygon polygon.relateMultisegment
  have boxG := hg.box hc
  have boxA := hc.segmentsBox _ ha
  obtain ⟨lg, hlg, og⟩ := hg.oriented hc false
  rw [← Polygon.segsPts_edges] at a3 boxG ⊢
  simp only
  by_cases h : box.disjointWith (context.polygonBox g) (context.segmentsBox a.segments) = true
  · refine ⟨.disjoint, by simp [h, pure, Except.pure], LinearAnswer.disjoint ?_ a2 a3⟩
    have hd := box.inter_empty boxG boxA h
    intro x hx
    have hn := fun h' => Set.eq_empty_iff_forall_notMem.mp hd x ⟨h', hx⟩
    exact (og.outline.cover (fun h' => hn (.inr h'))).resolve_left fun h' => hn (.inl h')
  rw [if_neg h]
  have nT := (matches_segments a).ne va.1
  obtain ⟨m1, m2⟩ := marks_registered og.ne nT
  have hf := ((Fresh.empty : (State.empty : State K).Fresh).register false og.ne).register true nT
  obtain ⟨r, hr, h⟩ := Outline.linearCompound' hc hf (T := a.segments) (.of_eq m1)
    (by
      rw [m2, map_marked_fst]
      refine .of_eq ?_
      unfold multisegment.toSegmentsEndpoints
      rw [List.map_map]
      rfl)
    (by simpa using og.outline) va.2
    (Polygon.edges_ne_nil hg) (fun x hx => boxG.le_maxX x (.inr hx)) boxA.le_maxX
  rw [min_comm] at hr
  refine ⟨r, ?_, h⟩
  rw [← hr, hlg]
  rfl

/-! ### multipolygons -/

/-- What is answered about segments and a multipolygon. -/
theorem linear_in_multipolygon' {context : Context K} (hc : context.Exact) {m : Multipolygon K}
    (hm : m.Valid) {test : List (SegmentEndpoints K)} {T : List (Segment K)}
    (pT : (test.map sorted).Perm (T.map Segment.up)) (ne : ∀ e ∈ test, e.1 ≠ e.2)
    (vT : SegmentsValid T) {testBox : Box K} (hb : IsBoxOf testBox (segsPts T)) :
    ∃ r, (do
        let (_, registered) ← registerParts context.polygonBox
          (fun polygon => Orient.polygon.toOrientedEdgesEndpoints polygon context) testBox (.ok test)
          m.polygons true none
        match registered with
        | none => return .disjoint
        | some (maxX, s) => runLinearCompound context s (min testBox.maxX maxX) : Py Relation) = .ok r ∧
      LinearAnswer (EdgesCross (m.polygons.flatMap Polygon.edges) T)
        (∀ g ∈ m.polygons, ¬ BoxesApart (segsPts T) (Polygon.interior g ∪ Polygon.pts g) →
          Polygon.pts g ⊆ segsPts T)
        (segsPts T) m.interior m.pts m.exterior r := by
  obtain ⟨r, hr, h⟩ := (hm.parts hc).linearCompound' hc pT ne vT.2 hb
  have e := segsPts_polygonsEdges m
  unfold polygonsEdges at e
  rw [e] at h
  simp only [Polygon.segsPts_edges] at h
  exact ⟨r, hr, h⟩

/-- C73: `multisegment_in_multipolygon` answers `CROSS` if edges of the polygons and segments cross,
`TOUCH` if they do not, the multisegment contains the whole boundary of each polygon whose bounding box
meets its bounding box and it has inner and outer points, and the relation of the multisegment to the
interior, the boundary and the exterior otherwise. -/
theorem C73_multisegment_in_multipolygon {context : Context K} (hc : context.Exact)
    {a : Multisegment K} {m : Multipolygon K} (ha : a.segments ≠ []) (va : SegmentsValid a.segments)
    (hm : m.Valid) :
    ∃ r, planar.multisegmentInMultipolygon a m context = .ok r ∧
      ∀ q, LinearAnswer (EdgesCross (m.polygons.flatMap Polygon.edges) a.segments)
        (∀ g ∈ m.polygons, ¬ BoxesApart (segsPts a.segments) (Polygon.interior g ∪ Polygon.pts g) →
          Polygon.pts g ⊆ segsPts a.segments)
        (segsPts a.segments) m.interior m.pts m.exterior q ↔ q = r := by
  unfold planar.multisegmentInMultipolygon multipolygon.relateMultisegment
  obtain ⟨r, hr, h⟩ := linear_in_multipolygon' hc hm (T := a.segments)
    (test := multisegment.toSegmentsEndpoints a) (.of_eq (by
      unfold multisegment.toSegmentsEndpoints
      rw [List.map_map]
      rfl)) ((matches_segments a).ne va.1) va (hc.segmentsBox _ ha)
  obtain ⟨h1, h2, h3⟩ := multipolygon_apart hm
  exact ⟨r, hr, LinearAnswer.only (segsPts_nonempty ha) h1 h2 h3 h⟩

/-- C73: `segment_in_multipolygon` answers `CROSS` if the segment and an edge of a polygon cross, and the
relation of the segment to the interior, the boundary and the exterior otherwise. -/
theorem C73_segment_in_multipolygon {context : Context K} (hc : context.Exact) {a : Segment K}
    {m : Multipolygon K} (ha : a.Nondegenerate) (hm : m.Valid) :
    ∃ r, planar.segmentInMultipolygon a m context = .ok r ∧
      ∀ q, CrossAnswer (EdgesCross (m.polygons.flatMap Polygon.edges) [a]) a.pts m.interior m.pts
        m.exterior q ↔ q = r := by
  have va : SegmentsValid [a] := ⟨by simpa using ha, List.pairwise_singleton _ _⟩
  obtain ⟨r, hr, h⟩ := C73_multisegment_in_multipolygon hc (a := ⟨[a]⟩) (by simp) va hm
  have h := (h r).mpr rfl
  rw [segsPts_singleton] at h
  obtain ⟨h1, h2, h3⟩ := multipolygon_apart hm
  refine ⟨r, hr, CrossAnswer.only ⟨_, a.start_mem⟩ h1 h2 h3 (LinearAnswer.cross h ?_)⟩
  rintro ⟨hY, x, x1, g, hg, x2⟩
  exact absurd (Set.subset_union_left.trans (hY g hg (not_boxesApart x1 (.inl x2))))
    ((hm.valid g hg).border.not_subset_segment ha)

/-- C73: `contour_in_multipolygon` answers `CROSS` if edges of the contour and of the polygons cross, and
the relation of the contour to the interior, the boundary and the exterior otherwise. -/
theorem C73_contour_in_multipolygon {context : Context K} (hc : context.Exact) {a : Contour K}
    {m : Multipolygon K} (ha : a.Simple) (hm : m.Valid) :
    ∃ r, planar.contourInMultipolygon a m context = .ok r ∧
      ∀ q, CrossAnswer (EdgesCross (m.polygons.flatMap Polygon.edges) a.edgeList) a.pts m.interior m.pts
        m.exterior q ↔ q = r := by
  unfold planar.contourInMultipolygon multipolygon.relateContour
  obtain ⟨r, hr, h⟩ := linear_in_multipolygon' hc hm (T := a.edgeList)
    (test := contour.toEdgesEndpoints a) (.of_eq (by
      rw [← toEdgesEndpoints_ofEndpoints, List.map_map]; rfl)) ((matches_edges a).ne ha.valid.1) ha.valid
    (testBox := context.contourBox a) (hc.contourBox a ha.ne_nil)
  obtain ⟨h1, h2, h3⟩ := multipolygon_apart hm
  refine ⟨r, hr, CrossAnswer.only ha.exists_mem h1 h2 h3 (LinearAnswer.cross h ?_)⟩
  rintro ⟨hY, x, x1, g, hg, x2⟩
  have e := ha.pts_eq_of_subset (hm.valid g hg).border
    (Set.subset_union_left.trans (hY g hg (not_boxesApart x1 (.inl x2))))
  exact Set.eq_empty_iff_forall_notMem.mp h1 x ⟨⟨g, hg, x2⟩, g, hg, .inl (e ▸ x1)⟩

/-- C73: `polygon_in_multipolygon` answers `OVERLAP` if edges cross, and the relation of the interiors and
the boundaries otherwise. -/
theorem C73_polygon_in_multipolygon {context : Context K} (hc : context.Exact) {a : Polygon K}
    {m : Multipolygon K} (ha : a.Valid) (hm : m.Valid) (nm : m.polygons ≠ []) :
    ∃ r, planar.polygonInMultipolygon a m context = .ok r ∧
      ∀ q, CompoundAnswer (EdgesCross (m.polygons.flatMap Polygon.edges) a.edges) a.interior a.pts
        a.exterior m.interior m.pts m.exterior q ↔ q = r := by
  obtain ⟨a1, a2, a3⟩ := polygon_apart ha
  obtain ⟨n1, n2⟩ := polygon_nonempty ha
  obtain ⟨b1, b2, b3⟩ := multipolygon_apart hm
  obtain ⟨k1, k2⟩ := multipolygon_nonempty hm nm
  unfold planar.polygonInMultipolygon multipolygon.relatePolygon
  obtain ⟨la, hla, oa⟩ := ha.oriented hc false
  have hb := ha.box hc
  rw [← Polygon.segsPts_edges] at hb
  obtain ⟨r, hr, h⟩ := (hm.parts hc).compound' hc oa hb
  have e := segsPts_polygonsEdges m
  unfold polygonsEdges at e
  rw [e, Polygon.segsPts_edges] at h
  refine ⟨r, ?_, CompoundAnswer.only n1 n2 k1 k2 a1 a2 b1 b2 h⟩
  rw [← hr, hla]
  rfl

/-- What is answered about two areas. -/
theorem areas' {context : Context K} (hc : context.Exact) {goal test : List (SegmentEndpoints K)}
    {G T : List (Segment K)} {I E I' E' : Set (Point K)} (og : Oriented false goal G I' E')
    (ot : Oriented false test T I E) {goalBox testBox : Box K}
    (hg : IsBoxOf goalBox (I' ∪ segsPts G)) (ht : IsBoxOf testBox (I ∪ segsPts T)) :
    ∃ r, runCompound context ((State.empty.register false goal).register true test)
        (min goalBox.maxX testBox.maxX) = .ok r ∧
      CompoundAnswer (EdgesCross G T) I (segsPts T) E I' (segsPts G) E' r := by
  obtain ⟨m1, m2⟩ := marks_registered og.ne ot.ne
  have hf := ((Fresh.empty : (State.empty : State K).Fresh).register false og.ne).register true ot.ne
  exact Outline.compound' hc hf (.of_eq m1) (.of_eq m2) (by simpa using og.outline)
    (by simpa using ot.outline) (fun x hx => hg.le_maxX x (.inr hx)) (fun x hx => ht.le_maxX x (.inr hx))

/-- C73: `multiregion_in_multipolygon` answers `OVERLAP` if edges cross, and the relation of the interiors
and the boundaries otherwise. -/
theorem C73_multiregion_in_multipolygon {context : Context K} (hc : context.Exact) {a : Multiregion K}
    {m : Multipolygon K} (ha : Multiregion.Valid a) (hm : m.Valid) (na : a ≠ [])
    (nm : m.polygons ≠ []) :
    ∃ r, planar.multiregionInMultipolygon a m context = .ok r ∧
      ∀ q, CompoundAnswer (EdgesCross (m.polygons.flatMap Polygon.edges) (a.flatMap Contour.edgeList))
        (Multiregion.interior a) (Multiregion.pts a) (Multiregion.exterior a) m.interior m.pts
          m.exterior q ↔ q = r := by
  obtain ⟨a1, a2, a3⟩ := multiregion_apart ha
  obtain ⟨n1, n2⟩ := multiregion_nonempty ha na
  obtain ⟨b1, b2, b3⟩ := multipolygon_apart hm
  obtain ⟨k1, k2⟩ := multipolygon_nonempty hm nm
  suffices h : ∃ r, planar.multiregionInMultipolygon a m context = .ok r ∧
      CompoundAnswer (EdgesCross (m.polygons.flatMap Polygon.edges) (a.flatMap Contour.edgeList))
        (Multiregion.interior a) (Multiregion.pts a) (Multiregion.exterior a) m.interior m.pts
          m.exterior r by
    obtain ⟨r, hr, h⟩ := h
    exact ⟨r, hr, CompoundAnswer.only n1 n2 k1 k2 a1 a2 b1 b2 h⟩
  unfold planar.multiregionInMultipolygon multipolygon.relateMultiregion
  have boxA := multiregion_box hc ha na
  have boxM := multipolygon_box hc hm nm
  obtain ⟨la, hla, oa⟩ := ha.oriented hc false
  obtain ⟨lm, hlm, om⟩ := polygons_oriented hc hm false
  rw [← segsPts_edgesOf] at boxA ⊢
  rw [← segsPts_polygonsEdges] at boxM ⊢
  simp only
  by_cases h : box.disjointWith (context.polygonsBox m.polygons) (context.contoursBox a) = true
  · refine ⟨.disjoint, by simp [h, pure, Except.pure], CompoundAnswer.disjoint ?_⟩
    have := box.inter_empty boxM boxA h
    rw [Set.inter_comm] at this
    exact this
  rw [if_neg h]
  obtain ⟨r, hr, h⟩ := areas' hc om oa boxM boxA
  refine ⟨r, ?_, h⟩
  rw [← hr]
  unfold multipolygon.toOrientedSegments
  rw [hla, hlm]
  rfl

/-- C73: `multipolygon_in_multipolygon` answers `OVERLAP` if edges cross, and the relation of the interiors
and the boundaries otherwise. -/
theorem C73_multipolygon_in_multipolygon {context : Context K} (hc : context.Exact)
    {a m : Multipolygon K} (ha : a.Valid) (hm : m.Valid) (na : a.polygons ≠ [])
    (nm : m.polygons ≠ []) :
    ∃ r, planar.multipolygonInMultipolygon a m context = .ok r ∧
      ∀ q, CompoundAnswer (EdgesCross (m.polygons.flatMap Polygon.edges)
        (a.polygons.flatMap Polygon.edges)) a.interior a.pts a.exterior m.interior m.pts m.exterior q ↔
          q = r := by
  obtain ⟨a1, a2, a3⟩ := multipolygon_apart ha
  obtain ⟨n1, n2⟩ := multipolygon_nonempty ha na
  obtain ⟨b1, b2, b3⟩ := multipolygon_apart hm
  obtain ⟨k1, k2⟩ := multipolygon_nonempty hm nm
  unfold planar.multipolygonInMultipolygon multipolygon.relateMultipolygon
  have boxA := multipolygon_box hc ha na
  have boxM := multipolygon_box hc hm nm
  obtain ⟨la, hla, oa⟩ := polygons_oriented hc ha false
  obtain ⟨lm, hlm, om⟩ := polygons_oriented hc hm false
  rw [← segsPts_polygonsEdges] at boxM boxA
  obtain ⟨r, hr, h⟩ := areas' hc om oa boxM boxA
  rw [segsPts_polygonsEdges, segsPts_polygonsEdges] at h
  refine ⟨r, ?_, CompoundAnswer.only n1 n2 k1 k2 a1 a2 b1 b2 h⟩
  rw [← hr]
  unfold multipolygon.toOrientedSegments
  rw [hla, hlm]
  rfl

/-! ### Concrete cases -/

/-- If each segment of a list ends or crosses the line `p a` at `p`, or is on a side of it, or has `p` and
`a` on one side, then the segment from `p` to `a` leaves the list. -/
theorem leavesAt_of_check {u : Segment K} {p a : Point K} {l : List (Segment K)} (ha : a ≠ p)
    (hp : p ∈ u.pts) (hau : a ∈ u.pts)
    (h : ∀ w ∈ l, (cross w.start w.finish p = 0 ∧ cross w.start w.finish a ≠ 0) ∨
      0 < cross w.start w.finish p * cross w.start w.finish a ∨
      0 < cross p a w.start * cross p a w.finish) : u.LeavesAt p (segsPts l) := by
  refine ⟨a, ha, ?_, ?_⟩
  · exact Segment.pts_subset hp hau
  · rintro x ⟨t, t0, t1, rfl⟩ ⟨w, hw, q, q0, q1, e⟩
    simp only at e
    have hx : cross w.start w.finish (lerp p a t) = 0 := by
      rw [e]; exact cross_lerp_self _ _ _
    have e1 : cross w.start w.finish (lerp p a t) =
        (1 - t) * cross w.start w.finish p + t * cross w.start w.finish a := by
      simp only [cross, lerp]; ring
    have e2 : cross p a (lerp w.start w.finish q) =
        (1 - q) * cross p a w.start + q * cross p a w.finish := by
      simp only [cross, lerp]; ring
    have e3 : cross p a (lerp w.start w.finish q) = 0 := by
      rw [← e]; exact cross_lerp_self _ _ _
    have key : ∀ {r c d : K}, 0 ≤ r → r ≤ 1 → 0 < c * d → (1 - r) * c + r * d ≠ 0 := by
      intro r c d r0 r1 hcd h0
      have : 0 < (1 - r) * c ^ 2 + r * (c * d) := by
        have c2 : 0 < c ^ 2 := by
          have : c ≠ 0 := by rintro rfl; simp at hcd
          positivity
        rcases eq_or_lt_of_le r0 with rfl | h
        · simpa using c2
        · have := mul_pos h hcd
          have := mul_nonneg (sub_nonneg.mpr r1) c2.le
          linarith
      have : (1 - r) * c ^ 2 + r * (c * d) = ((1 - r) * c + r * d) * c := by ring
      rw [h0, zero_mul] at this
      linarith
    rcases h w hw with ⟨h1, h2⟩ | h | h
    · rw [e1, h1, mul_zero, zero_add] at hx
      rcases mul_eq_zero.mp hx with rfl | h
      · ext <;> simp [lerp]
      · exact absurd h h2
    · exact absurd (e1 ▸ hx) (key t0 t1 h)
    · exact absurd (e2 ▸ e3) (key q0 q1 h)

/-- A multisegment with a triangle and segments inside and outside of it: edges do not cross, the boundary
is contained, the answer is `TOUCH` although there are inner and outer points. -/
theorem C73_region_example :
    LinearAnswer (EdgesCross exampleRegion.edgeList exampleMultisegment.segments)
        (exampleRegion.pts ⊆ segsPts exampleMultisegment.segments)
        (segsPts exampleMultisegment.segments) exampleRegion.interior exampleRegion.pts
        exampleRegion.exterior .touch ∧
      ¬ EdgesCross exampleRegion.edgeList exampleMultisegment.segments ∧
      exampleRegion.pts ⊆ segsPts exampleMultisegment.segments := by
  obtain ⟨r, hr, h⟩ := C73_multisegment_in_region reference.context_exact
    (a := exampleMultisegment) (b := exampleRegion) (by decide +kernel)
    (segmentsValid_of_check (by decide +kernel)) exampleRegion_simple
  have e : planar.multisegmentInRegion exampleMultisegment exampleRegion
      (reference.context : Context ℚ) = .ok .touch := by decide +kernel
  rw [e] at hr
  cases hr
  have h := (h .touch).mpr rfl
  refine ⟨h, fun hX => Relation.noConfusion (h.1 hX), ?_⟩
  rintro x ⟨u, hu, hx⟩
  exact ⟨u, (by decide +kernel : ∀ u ∈ exampleRegion.edgeList, u ∈ exampleMultisegment.segments) u hu, hx⟩

/-- The segment from one triangle to the other one crosses an edge of the first triangle: the answer is
`CROSS` although there are no outer points. -/
theorem C73_multiregion_example :
    EdgesCross (exampleTouching.flatMap Contour.edgeList) [⟨⟨1, 1⟩, ⟨3, 3⟩⟩] ∧
      planar.segmentInMultiregion ⟨⟨1, 1⟩, ⟨3, 3⟩⟩ exampleTouching (reference.context : Context ℚ)
        = .ok .cross := by
  have hX : EdgesCross (exampleTouching.flatMap Contour.edgeList) [⟨⟨1, 1⟩, ⟨3, 3⟩⟩] := by
    refine ⟨⟨⟨1, 1⟩, ⟨3, 3⟩⟩, by simp, ⟨⟨4, 0⟩, ⟨0, 4⟩⟩, by decide +kernel, ⟨2, 2⟩,
      ⟨by rw [mem_pts_iff]; decide +kernel, by rw [mem_pts_iff]; decide +kernel⟩,
      by unfold Segment.IsEndpoint; decide +kernel, by unfold Segment.IsEndpoint; decide +kernel,
      .inl (leavesAt_of_check (a := ⟨1, 1⟩) (by decide +kernel) (by rw [mem_pts_iff]; decide +kernel)
        (by rw [mem_pts_iff]; decide +kernel) (by decide +kernel))⟩
  obtain ⟨r, hr, h⟩ := C73_segment_in_multiregion reference.context_exact (a := ⟨⟨1, 1⟩, ⟨3, 3⟩⟩)
    (m := exampleTouching) (by unfold Segment.Nondegenerate; decide +kernel)
    (Multiregion.valid_of_check (by decide +kernel))
  exact ⟨hX, hr.trans (congrArg _ (((h r).mpr rfl).1 hX))⟩

/-- The segment from the hole to the outside crosses the border: the answer is `CROSS` although there are no
inner points. -/
theorem C73_polygon_example :
    EdgesCross exampleTouchedBorder.edges [⟨⟨2, 3⟩, ⟨2, 5⟩⟩] ∧
      planar.multisegmentInPolygon ⟨[⟨⟨2, 3⟩, ⟨2, 5⟩⟩]⟩ exampleTouchedBorder
        (reference.context : Context ℚ) = .ok .cross ∧
      planar.segmentInMultipolygon ⟨⟨2, 3⟩, ⟨2, 5⟩⟩ ⟨[exampleTouchedBorder]⟩
        (reference.context : Context ℚ) = .ok .cross := by
  have hX : EdgesCross exampleTouchedBorder.edges [⟨⟨2, 3⟩, ⟨2, 5⟩⟩] := by
    refine ⟨⟨⟨2, 3⟩, ⟨2, 5⟩⟩, by simp, ⟨⟨4, 4⟩, ⟨0, 4⟩⟩, by decide +kernel, ⟨2, 4⟩,
      ⟨by rw [mem_pts_iff]; decide +kernel, by rw [mem_pts_iff]; decide +kernel⟩,
      by unfold Segment.IsEndpoint; decide +kernel, by unfold Segment.IsEndpoint; decide +kernel,
      .inl (leavesAt_of_check (a := ⟨2, 5⟩) (by decide +kernel) (by rw [mem_pts_iff]; decide +kernel)
        (by rw [mem_pts_iff]; decide +kernel) (by decide +kernel))⟩
  obtain ⟨r, hr, h⟩ := C73_multisegment_in_polygon reference.context_exact (a := ⟨[⟨⟨2, 3⟩, ⟨2, 5⟩⟩]⟩)
    (g := exampleTouchedBorder) (by simp) (segmentsValid_of_check (by decide +kernel))
    (Polygon.valid_of_check (by decide +kernel))
  obtain ⟨q, hq, h'⟩ := C73_segment_in_multipolygon reference.context_exact (a := ⟨⟨2, 3⟩, ⟨2, 5⟩⟩)
    (m := ⟨[exampleTouchedBorder]⟩) (by unfold Segment.Nondegenerate; decide +kernel)
    (Multipolygon.valid_of_check (by decide +kernel))
  exact ⟨hX, hr.trans (congrArg _ (((h r).mpr rfl).1 hX)),
    hq.trans (congrArg _ (((h' q).mpr rfl).1 (by simpa using hX)))⟩

/-- An edge of the border of the polygon crosses an edge of the first polygon around it: the answer is
`OVERLAP` although there are no outer points. -/
theorem C73_areas_example :
    EdgesCross (exampleAround.polygons.flatMap Polygon.edges) exampleSplit.edges ∧
      planar.polygonInMultipolygon exampleSplit exampleAround (reference.context : Context ℚ)
        = .ok .overlap ∧
      planar.multipolygonInMultipolygon ⟨[exampleSplit]⟩ exampleAround (reference.context : Context ℚ)
        = .ok .overlap := by
  have hX : EdgesCross (exampleAround.polygons.flatMap Polygon.edges) exampleSplit.edges := by
    refine ⟨⟨⟨5, 10⟩, ⟨-5, -10⟩⟩, by decide +kernel, ⟨⟨-12, 0⟩, ⟨22, 0⟩⟩, by decide +kernel, ⟨0, 0⟩,
      ⟨by rw [mem_pts_iff]; decide +kernel, by rw [mem_pts_iff]; decide +kernel⟩,
      by unfold Segment.IsEndpoint; decide +kernel, by unfold Segment.IsEndpoint; decide +kernel,
      .inr (leavesAt_of_check (a := ⟨-1, 0⟩) (by decide +kernel) (by rw [mem_pts_iff]; decide +kernel)
        (by rw [mem_pts_iff]; decide +kernel) (by decide +kernel))⟩
  have hv : exampleAround.Valid := Multipolygon.valid_of_check (by decide +kernel)
  obtain ⟨r, hr, h⟩ := C73_polygon_in_multipolygon reference.context_exact
    (Polygon.valid_of_check (by decide +kernel) : exampleSplit.Valid) hv (by decide +kernel)
  obtain ⟨q, hq, h'⟩ := C73_multipolygon_in_multipolygon reference.context_exact
    (Multipolygon.valid_of_check (by decide +kernel) : Multipolygon.Valid ⟨[exampleSplit]⟩) hv
    (by simp) (by decide +kernel)
  exact ⟨hX, hr.trans (congrArg _ (((h r).mpr rfl).1 hX)),
    hq.trans (congrArg _ (((h' q).mpr rfl).1 (by simpa using hX)))⟩

end Orient.Props
