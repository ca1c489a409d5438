import Verif.Props.MovedRelations
import Verif.Props.SameSetsExamples

/-! C53: geometries and a map which meet the hypotheses, and cases which show that the conditions cannot be left
out. -/

set_option linter.unusedSectionVars false

namespace Orient.Props

/-- A reflection followed by a shear and a translation; it turns contours around. -/
def moveF : Affine ℚ := ⟨-1, 2, 1, 3, 1 / 2, -7⟩

theorem moveF_ok : moveF.det ≠ 0 := by decide +kernel

/-- C53 applies to points. -/
theorem C53_example_point :
    planar.pointInSegment (moveF.apply ⟨6, 4⟩) (moveF.segment sameS) reference.context =
      planar.pointInSegment ⟨6, 4⟩ sameS reference.context ∧
    planar.pointInMultipolygon (moveF.apply ⟨1, 3⟩) (moveF.multipolygon sameD) reference.context =
      planar.pointInMultipolygon ⟨1, 3⟩ sameD reference.context :=
  ⟨C53_point_in_segment ex moveF_ok _ _, C53_point_in_multipolygon ex moveF_ok _ _⟩

/-- C53 applies to segments, multisegments, contours and regions. -/
theorem C53_example_simple :
    planar.segmentInSegment (moveF.segment sameS) (moveF.segment sameS') reference.context =
      planar.segmentInSegment sameS sameS' reference.context ∧
    planar.segmentInMultisegment (moveF.segment sameS) (moveF.multisegment sameX) reference.context =
      planar.segmentInMultisegment sameS sameX reference.context ∧
    planar.segmentInContour (moveF.segment sameS) (moveF.contour sameQ) reference.context =
      planar.segmentInContour sameS sameQ reference.context ∧
    planar.segmentInRegion (moveF.segment sameS) (moveF.contour sameQ) reference.context =
      planar.segmentInRegion sameS sameQ reference.context ∧
    planar.multisegmentInMultisegment (moveF.multisegment sameX) (moveF.multisegment ⟨sameQ.edgeList⟩)
        reference.context = planar.multisegmentInMultisegment sameX ⟨sameQ.edgeList⟩ reference.context ∧
    planar.multisegmentInContour (moveF.multisegment sameX) (moveF.contour sameQ) reference.context =
      planar.multisegmentInContour sameX sameQ reference.context ∧
    planar.multisegmentInRegion (moveF.multisegment sameX) (moveF.contour sameQ) reference.context =
      planar.multisegmentInRegion sameX sameQ reference.context ∧
    planar.contourInContour (moveF.contour sameQ) (moveF.contour sameT) reference.context =
      planar.contourInContour sameQ sameT reference.context ∧
    planar.contourInRegion (moveF.contour sameQ) (moveF.contour sameT) reference.context =
      planar.contourInRegion sameQ sameT reference.context ∧
    planar.regionInRegion (moveF.contour sameQ) (moveF.contour sameT) reference.context =
      planar.regionInRegion sameQ sameT reference.context := by
  obtain ⟨s, s', -⟩ := sameS_ok
  obtain ⟨nx, -, x, -, -⟩ := sameX_ok
  obtain ⟨q, -, t, -, -, -, -, -⟩ := same_simple
  have off : ∀ {p : Point ℚ}, planar.pointInContour p sameQ reference.context = .exterior → p ∉ sameQ.pts :=
    fun {p} h hp => by rw [(contour_boundary ex p sameQ).mpr hp] at h; cases h
  refine ⟨?_, ?_, ?_, ?_, ?_, ?_, ?_, ?_, ?_, ?_⟩
  · exact C53_segment_in_segment ex moveF_ok s s'
  · exact C53_segment_in_multisegment ex moveF_ok s x nx
  · exact C53_segment_in_contour ex moveF_ok s q
  · exact C53_segment_in_region ex moveF_ok s q (not_sharesPiece_of_check (by decide +kernel))
      (.inr (.inl (off (by decide +kernel))))
  · exact C53_multisegment_in_multisegment_two ex moveF_ok nx (by decide +kernel) x q.valid
      (fun p _ => .inl (q.atMostTwoWays p))
  · exact C53_multisegment_in_contour ex moveF_ok nx x q
  · exact C53_multisegment_in_region ex moveF_ok x q nx
      (not_covered (p := ⟨0, 0⟩) ((contour_boundary ex _ _).mp (by decide +kernel)) (by decide +kernel))
  · exact C53_contour_in_contour ex moveF_ok q t
  · exact C53_contour_in_region ex moveF_ok q t
  · exact C53_region_in_region ex moveF_ok q t

/-- C53 applies to multiregions. -/
theorem C53_example_multiregion :
    planar.segmentInMultiregion (moveF.segment sameS) (moveF.multiregion sameM) reference.context =
      planar.segmentInMultiregion sameS sameM reference.context ∧
    planar.multisegmentInMultiregion (moveF.multisegment sameX) (moveF.multiregion sameM) reference.context =
      planar.multisegmentInMultiregion sameX sameM reference.context ∧
    planar.contourInMultiregion (moveF.contour sameQ) (moveF.multiregion sameM) reference.context =
      planar.contourInMultiregion sameQ sameM reference.context ∧
    planar.regionInMultiregion (moveF.contour sameQ) (moveF.multiregion sameM) reference.context =
      planar.regionInMultiregion sameQ sameM reference.context ∧
    planar.multiregionInMultiregion (moveF.multiregion sameN) (moveF.multiregion sameM) reference.context =
      planar.multiregionInMultiregion sameN sameM reference.context := by
  obtain ⟨s, s', hs⟩ := sameS_ok
  obtain ⟨nx, nx', x, x', hx⟩ := sameX_ok
  obtain ⟨q, q', -, -, -, -, -, -⟩ := same_simple
  obtain ⟨m, m', hm⟩ := sameM_ok
  obtain ⟨n, n', hn⟩ := sameN_ok
  have e : Neat (sameM.flatMap Contour.edgeList) := neat_of_check (by decide +kernel)
  refine ⟨?_, ?_, ?_, ?_, ?_⟩
  · exact C53_segment_in_multiregion ex moveF_ok s m e
  · refine C53_multisegment_in_multiregion ex moveF_ok x m nx e ?_
    intro c hc
    simp only [sameM, List.mem_cons, List.not_mem_nil, or_false] at hc
    rcases hc with rfl | rfl
    · exact not_covered (p := ⟨4, 4⟩) ((contour_boundary ex _ _).mp (by decide +kernel)) (by decide +kernel)
    · exact not_covered (p := ⟨14, 0⟩) ((contour_boundary ex _ _).mp (by decide +kernel)) (by decide +kernel)
  · exact C53_contour_in_multiregion ex moveF_ok q m e
  · exact C53_region_in_multiregion ex moveF_ok q m (by simp [sameM])
  · exact C53_multiregion_in_multiregion ex moveF_ok n m (by simp [sameN]) (by simp [sameM])

/-- C53 applies to polygons. -/
theorem C53_example_polygon :
    planar.segmentInPolygon (moveF.segment sameS) (moveF.polygon sameG) reference.context =
      planar.segmentInPolygon sameS sameG reference.context ∧
    planar.multisegmentInPolygon (moveF.multisegment sameX) (moveF.polygon sameG) reference.context =
      planar.multisegmentInPolygon sameX sameG reference.context ∧
    planar.contourInPolygon (moveF.contour sameT) (moveF.polygon sameG) reference.context =
      planar.contourInPolygon sameT sameG reference.context ∧
    planar.regionInPolygon (moveF.contour sameT) (moveF.polygon sameG) reference.context =
      planar.regionInPolygon sameT sameG reference.context ∧
    planar.multiregionInPolygon (moveF.multiregion sameM) (moveF.polygon sameG) reference.context =
      planar.multiregionInPolygon sameM sameG reference.context ∧
    planar.polygonInPolygon (moveF.polygon sameF) (moveF.polygon sameG) reference.context =
      planar.polygonInPolygon sameF sameG reference.context := by
  obtain ⟨s, s', hs⟩ := sameS_ok
  obtain ⟨nx, nx', x, x', hx⟩ := sameX_ok
  obtain ⟨q, q', t, t', u, u', h, h'⟩ := same_simple
  obtain ⟨m, m', hm⟩ := sameM_ok
  obtain ⟨g, g', c, hg⟩ := sameG_ok
  obtain ⟨f, f', cf, hf⟩ := sameF_ok
  have e : Neat (sameG.holes.flatMap Contour.edgeList) := neat_of_check (by decide +kernel)
  have off : ∀ {p : Point ℚ}, planar.pointInContour p sameQ reference.context = .exterior → p ∉ sameQ.pts :=
    fun {p} h hp => by rw [(contour_boundary ex p sameQ).mpr hp] at h; cases h
  refine ⟨?_, ?_, ?_, ?_, ?_, ?_⟩
  · exact C53_segment_in_polygon ex moveF_ok s g (not_sharesPiece_of_check (by decide +kernel))
      (.inr (.inl (off (by decide +kernel)))) e sameG_off.1
  · exact C53_multisegment_in_polygon ex moveF_ok x g nx (neat_of_check (by decide +kernel))
      (not_covered (p := ⟨0, 0⟩) (.inl ((contour_boundary ex _ _).mp (by decide +kernel))) (by decide +kernel))
  · exact C53_contour_in_polygon ex moveF_ok t g c e
  · exact C53_region_in_polygon ex moveF_ok t g c
  · exact C53_multiregion_in_polygon ex moveF_ok m g (by simp [sameM]) c
  · refine C53_polygon_in_polygon ex moveF_ok f g cf c ?_ ?_
    · exact fun d hd => not_touch (g.holes.simple d hd) t (by revert d; decide +kernel)
    · exact fun d hd => absurd hd List.not_mem_nil

/-- C53 applies to multipolygons. -/
theorem C53_example_multipolygon :
    planar.segmentInMultipolygon (moveF.segment sameS) (moveF.multipolygon sameD) reference.context =
      planar.segmentInMultipolygon sameS sameD reference.context ∧
    planar.multisegmentInMultipolygon (moveF.multisegment sameX) (moveF.multipolygon sameD) reference.context =
      planar.multisegmentInMultipolygon sameX sameD reference.context ∧
    planar.contourInMultipolygon (moveF.contour sameT) (moveF.multipolygon sameD) reference.context =
      planar.contourInMultipolygon sameT sameD reference.context ∧
    planar.regionInMultipolygon (moveF.contour sameT) (moveF.multipolygon sameD) reference.context =
      planar.regionInMultipolygon sameT sameD reference.context ∧
    planar.multiregionInMultipolygon (moveF.multiregion sameM) (moveF.multipolygon sameD) reference.context =
      planar.multiregionInMultipolygon sameM sameD reference.context ∧
    planar.polygonInMultipolygon (moveF.polygon sameF) (moveF.multipolygon sameD) reference.context =
      planar.polygonInMultipolygon sameF sameD reference.context ∧
    planar.multipolygonInMultipolygon (moveF.multipolygon sameE) (moveF.multipolygon sameD) reference.context =
      planar.multipolygonInMultipolygon sameE sameD reference.context := by
  obtain ⟨s, s', hs⟩ := sameS_ok
  obtain ⟨nx, nx', x, x', hx⟩ := sameX_ok
  obtain ⟨q, q', t, t', u, u', h, h'⟩ := same_simple
  obtain ⟨m, m', hm⟩ := sameM_ok
  obtain ⟨f, f', -, hf⟩ := sameF_ok
  obtain ⟨d, d', hd⟩ := sameD_ok
  obtain ⟨k, k', hk⟩ := sameE_ok
  have e : Neat (sameD.polygons.flatMap Polygon.edges) := neat_of_check (by decide +kernel)
  have nd : sameD.polygons ≠ [] := by simp [sameD]
  refine ⟨?_, ?_, ?_, ?_, ?_, ?_, ?_⟩
  · exact C53_segment_in_multipolygon ex moveF_ok s d e
  · refine C53_multisegment_in_multipolygon ex moveF_ok x d nx e ?_
    intro c hc
    simp only [sameD, List.mem_cons, List.not_mem_nil, or_false] at hc
    rcases hc with rfl | rfl
    · exact not_covered (p := ⟨0, 0⟩) (.inl ((contour_boundary ex _ _).mp (by decide +kernel)))
        (by decide +kernel)
    · exact not_covered (p := ⟨14, 0⟩) (.inl ((contour_boundary ex _ _).mp (by decide +kernel)))
        (by decide +kernel)
  · exact C53_contour_in_multipolygon ex moveF_ok t d e
  · exact C53_region_in_multipolygon ex moveF_ok t d nd
  · exact C53_multiregion_in_multipolygon ex moveF_ok m d (by simp [sameM]) nd (.inr e)
  · exact C53_polygon_in_multipolygon ex moveF_ok f d nd (.inr e)
  · exact C53_multipolygon_in_multipolygon ex moveF_ok k d (by simp [sameE]) nd (.inr e)

/-- A reflection changes the answer for a diagonal: the original contour is clockwise. -/
theorem C53_counterexample_segment_in_region :
    let f : Affine ℚ := ⟨-1, 0, 0, 1, 0, 0⟩
    let c : Contour ℚ := ⟨[⟨3, 0⟩, ⟨1, 0⟩, ⟨1, 3⟩, ⟨4, 4⟩, ⟨3, 1⟩]⟩
    let s : Segment ℚ := ⟨⟨3, 0⟩, ⟨1, 2⟩⟩
    f.det ≠ 0 ∧ c.Simple ∧ s.Nondegenerate ∧
      planar.segmentInRegion s c reference.context = .ok .touch ∧
      planar.segmentInRegion (f.segment s) (f.contour c) reference.context = .ok .enclosed :=
  ⟨by decide +kernel, Contour.simple_of_check (by decide +kernel),
    by unfold Segment.Nondegenerate; decide +kernel, by decide +kernel, by decide +kernel⟩

/-- A rotation by a right angle turns the answer `TOUCH` into `CROSS` for multisegments where more than two
segments end at the common point. -/
theorem C53_counterexample_multisegment :
    let f : Affine ℚ := ⟨0, -1, 1, 0, 0, 0⟩
    let a : Multisegment ℚ := ⟨[⟨⟨0, 0⟩, ⟨2, 1⟩⟩, ⟨⟨0, 0⟩, ⟨-2, 0⟩⟩]⟩
    let b : Multisegment ℚ :=
      ⟨[⟨⟨0, 0⟩, ⟨2, 0⟩⟩, ⟨⟨0, 0⟩, ⟨0, 2⟩⟩, ⟨⟨0, 0⟩, ⟨-2, 1⟩⟩, ⟨⟨0, 0⟩, ⟨-2, -1⟩⟩]⟩
    f.det ≠ 0 ∧ SegmentsValid a.segments ∧ SegmentsValid b.segments ∧
      planar.multisegmentInMultisegment a b reference.context = .ok .touch ∧
      planar.multisegmentInMultisegment (f.multisegment a) (f.multisegment b) reference.context = .ok .cross :=
  ⟨by decide +kernel, segmentsValid_of_check (by decide +kernel), segmentsValid_of_check (by decide +kernel),
    by decide +kernel, by decide +kernel⟩

end Orient.Props
