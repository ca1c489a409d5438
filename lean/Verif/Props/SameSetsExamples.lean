import Verif.Props.SameSets
import Verif.Props.PolygonExamples

/-! C52: geometries written down in different ways which meet the hypotheses, and cases which show that the
conditions cannot be left out. -/

set_option linter.unusedSectionVars false

namespace Orient.Props

/-! ### geometries -/

def sameS : Segment ℚ := ⟨⟨1, 3⟩, ⟨11, 5⟩⟩

def sameS' : Segment ℚ := ⟨⟨11, 5⟩, ⟨1, 3⟩⟩

def sameX : Multisegment ℚ := ⟨[⟨⟨2, 2⟩, ⟨10, 2⟩⟩, ⟨⟨10, 2⟩, ⟨10, 10⟩⟩]⟩

/-- `sameX` with a divided segment, in another order. -/
def sameX' : Multisegment ℚ := ⟨[⟨⟨10, 10⟩, ⟨10, 2⟩⟩, ⟨⟨2, 2⟩, ⟨5, 2⟩⟩, ⟨⟨5, 2⟩, ⟨10, 2⟩⟩]⟩

def sameQ : Contour ℚ := ⟨[⟨0, 0⟩, ⟨8, 0⟩, ⟨8, 8⟩, ⟨0, 8⟩]⟩

/-- `sameQ` with superfluous vertices, clockwise. -/
def sameQ' : Contour ℚ := ⟨[⟨8, 8⟩, ⟨8, 1⟩, ⟨8, 0⟩, ⟨3, 0⟩, ⟨0, 0⟩, ⟨0, 8⟩]⟩

def sameT : Contour ℚ := ⟨[⟨4, 4⟩, ⟨12, 4⟩, ⟨12, 6⟩, ⟨4, 6⟩]⟩

/-- `sameT` with a superfluous vertex. -/
def sameT' : Contour ℚ := ⟨[⟨12, 4⟩, ⟨12, 6⟩, ⟨9, 6⟩, ⟨4, 6⟩, ⟨4, 4⟩]⟩

def sameU : Contour ℚ := ⟨[⟨14, 0⟩, ⟨16, 0⟩, ⟨14, 2⟩]⟩

def sameU' : Contour ℚ := ⟨[⟨14, 2⟩, ⟨16, 0⟩, ⟨14, 0⟩]⟩

def sameH : Contour ℚ := ⟨[⟨1, 1⟩, ⟨2, 1⟩, ⟨2, 2⟩, ⟨1, 2⟩]⟩

def sameH' : Contour ℚ := ⟨[⟨1, 1⟩, ⟨1, 2⟩, ⟨2, 2⟩, ⟨2, 1⟩]⟩

def sameM : Multiregion ℚ := [sameT, sameU]

def sameM' : Multiregion ℚ := [sameU', sameT']

def sameN : Multiregion ℚ := [sameQ, sameU]

def sameN' : Multiregion ℚ := [sameU', sameQ']

def sameG : Polygon ℚ := ⟨sameQ, [sameH]⟩

def sameG' : Polygon ℚ := ⟨sameQ', [sameH']⟩

def sameF : Polygon ℚ := ⟨sameT, []⟩

def sameF' : Polygon ℚ := ⟨sameT', []⟩

def sameD : Multipolygon ℚ := ⟨[sameG, ⟨sameU, []⟩]⟩

def sameD' : Multipolygon ℚ := ⟨[⟨sameU', []⟩, sameG']⟩

def sameE : Multipolygon ℚ := ⟨[sameF]⟩

def sameE' : Multipolygon ℚ := ⟨[sameF']⟩

/-! ### they are valid and have the same points -/

theorem ex : (reference.context : Context ℚ).Exact := reference.context_exact

theorem sameS_ok : sameS.Nondegenerate ∧ sameS'.Nondegenerate ∧ SameSegment reference.context sameS sameS' := by
  refine ⟨?_, ?_, ?_⟩
  · unfold Segment.Nondegenerate; decide +kernel
  · unfold Segment.Nondegenerate; decide +kernel
  · exact (sameSegment_iff ex).mpr (Segment.pts_reverse sameS).symm

theorem sameX_ok : sameX.segments ≠ [] ∧ sameX'.segments ≠ [] ∧ SegmentsValid sameX.segments ∧
    SegmentsValid sameX'.segments ∧ SameMultisegment reference.context sameX sameX' := by
  have v : SegmentsValid sameX.segments := segmentsValid_of_check (by decide +kernel)
  have v' : SegmentsValid sameX'.segments := segmentsValid_of_check (by decide +kernel)
  refine ⟨by decide +kernel, by decide +kernel, v, v', (sameMultisegment_iff ex).mpr ?_⟩
  exact (C18_multisegment_in_multisegment_iff ex (by decide +kernel) (by decide +kernel) v v').1.mp
    (by decide +kernel)

theorem sameContour_of {a b : Contour ℚ} (ha : a.Simple) (hb : b.Simple)
    (h : planar.contourInContour a b reference.context = .ok .equal) : SameContour reference.context a b :=
  (sameContour_iff ex).mpr (C36_contour_in_contour_sound ex ha hb (by simp) h)

theorem sameRegion_of {a b : Contour ℚ} (ha : a.Simple) (hb : b.Simple)
    (h : SameContour reference.context a b) : SameRegion reference.context a b := by
  refine (sameRegion_iff ex).mpr ?_
  have f := h.sets ex
  have i := ha.interior_congr hb f
  ext x
  have s := ha.split
  have s' := hb.split
  have := s.cover x
  have := s.ie x
  have := s.be x
  have := s'.cover x
  have := s'.ie x
  have := s'.be x
  grind

theorem same_simple : sameQ.Simple ∧ sameQ'.Simple ∧ sameT.Simple ∧ sameT'.Simple ∧ sameU.Simple ∧
    sameU'.Simple ∧ sameH.Simple ∧ sameH'.Simple := by
  refine ⟨?_, ?_, ?_, ?_, ?_, ?_, ?_, ?_⟩ <;> exact Contour.simple_of_check (by decide +kernel)

theorem same_contours : SameContour reference.context sameQ sameQ' ∧ SameContour reference.context sameT sameT' ∧
    SameContour reference.context sameU sameU' ∧ SameContour reference.context sameH sameH' := by
  obtain ⟨q, q', t, t', u, u', h, h'⟩ := same_simple
  exact ⟨sameContour_of q q' (by decide +kernel), sameContour_of t t' (by decide +kernel),
    sameContour_of u u' (by decide +kernel), sameContour_of h h' (by decide +kernel)⟩

theorem same_regions : SameRegion reference.context sameQ sameQ' ∧ SameRegion reference.context sameT sameT' ∧
    SameRegion reference.context sameU sameU' ∧ SameRegion reference.context sameH sameH' := by
  obtain ⟨q, q', t, t', u, u', h, h'⟩ := same_simple
  obtain ⟨k1, k2, k3, k4⟩ := same_contours
  exact ⟨sameRegion_of q q' k1, sameRegion_of t t' k2, sameRegion_of u u' k3, sameRegion_of h h' k4⟩

theorem sameM_ok : Multiregion.Valid sameM ∧ Multiregion.Valid sameM' ∧
    SameMultiregion reference.context sameM sameM' := by
  have v : Multiregion.Valid sameM := Multiregion.valid_of_check (by decide +kernel)
  have v' : Multiregion.Valid sameM' := Multiregion.valid_of_check (by decide +kernel)
  refine ⟨v, v', (sameMultiregion_iff ex v v').mpr ?_⟩
  obtain ⟨-, t, u, -⟩ := same_regions
  rw [sameRegion_iff ex] at t u
  ext x
  simp [Multiregion.exterior, sameM, sameM', t, u, and_comm]

theorem sameN_ok : Multiregion.Valid sameN ∧ Multiregion.Valid sameN' ∧
    SameMultiregion reference.context sameN sameN' := by
  have v : Multiregion.Valid sameN := Multiregion.valid_of_check (by decide +kernel)
  have v' : Multiregion.Valid sameN' := Multiregion.valid_of_check (by decide +kernel)
  refine ⟨v, v', (sameMultiregion_iff ex v v').mpr ?_⟩
  obtain ⟨q, -, u, -⟩ := same_regions
  rw [sameRegion_iff ex] at q u
  ext x
  simp [Multiregion.exterior, sameN, sameN', q, u, and_comm]

theorem sameG_ext : sameG.exterior = sameG'.exterior := by
  obtain ⟨q, -, -, h⟩ := same_regions
  obtain ⟨sq, sq', -, -, -, -, sh, sh'⟩ := same_simple
  obtain ⟨h1, -, -⟩ := h.sets ex sh sh'
  obtain ⟨-, -, q3⟩ := q.sets ex sq sq'
  ext x
  simp [Polygon.exterior, Multiregion.interior, sameG, sameG', h1, q3]

theorem sameG_ok : sameG.Valid ∧ sameG'.Valid ∧ sameG.Connected ∧ SamePolygon reference.context sameG sameG' := by
  have v : sameG.Valid := Polygon.valid_of_check (by decide +kernel)
  have v' : sameG'.Valid := Polygon.valid_of_check (by decide +kernel)
  refine ⟨v, v', v.connected ⟨_, .refl _, reference.isLoose_spec (m := [(sameQ, ⟨0, 0⟩), (sameH, ⟨0, 0⟩)])
    (by decide +kernel)⟩, (samePolygon_iff ex v v').mpr sameG_ext⟩

theorem sameF_ext : sameF.exterior = sameF'.exterior := by
  obtain ⟨-, t, -, -⟩ := same_regions
  rw [sameRegion_iff ex] at t
  ext x
  simp [Polygon.exterior, Multiregion.interior, sameF, sameF', t]

theorem sameF_ok : sameF.Valid ∧ sameF'.Valid ∧ sameF.Connected ∧ SamePolygon reference.context sameF sameF' := by
  have v : sameF.Valid := Polygon.valid_of_check (by decide +kernel)
  have v' : sameF'.Valid := Polygon.valid_of_check (by decide +kernel)
  refine ⟨v, v', v.connected ⟨_, .refl _, reference.isLoose_spec (m := [(sameT, ⟨0, 0⟩)])
    (by decide +kernel)⟩, (samePolygon_iff ex v v').mpr sameF_ext⟩

theorem sameD_ok : sameD.Valid ∧ sameD'.Valid ∧ SameMultipolygon reference.context sameD sameD' := by
  have v : sameD.Valid := Multipolygon.valid_of_check (by decide +kernel)
  have v' : sameD'.Valid := Multipolygon.valid_of_check (by decide +kernel)
  refine ⟨v, v', (sameMultipolygon_iff ex v v').mpr ?_⟩
  obtain ⟨-, -, u, -⟩ := same_regions
  rw [sameRegion_iff ex] at u
  ext x
  have : (⟨sameU, []⟩ : Polygon ℚ).exterior = (⟨sameU', []⟩ : Polygon ℚ).exterior := by
    ext x
    simp [Polygon.exterior, Multiregion.interior, u]
  simp [Multipolygon.exterior, sameD, sameD', sameG_ext, this, and_comm]

theorem sameE_ok : sameE.Valid ∧ sameE'.Valid ∧ SameMultipolygon reference.context sameE sameE' := by
  have v : sameE.Valid := Multipolygon.valid_of_check (by decide +kernel)
  have v' : sameE'.Valid := Multipolygon.valid_of_check (by decide +kernel)
  refine ⟨v, v', (sameMultipolygon_iff ex v v').mpr ?_⟩
  ext x
  simp [Multipolygon.exterior, sameE, sameE', sameF_ext]

/-! ### the theorems apply -/

/-- C52 applies to segments, multisegments, contours and regions. -/
theorem C52_example_simple :
    planar.segmentInSegment sameS sameS reference.context = planar.segmentInSegment sameS' sameS reference.context ∧
    planar.segmentInMultisegment sameS sameX reference.context =
      planar.segmentInMultisegment sameS' sameX' reference.context ∧
    planar.segmentInContour sameS sameQ reference.context = planar.segmentInContour sameS' sameQ reference.context ∧
    planar.segmentInRegion sameS sameQ reference.context = planar.segmentInRegion sameS' sameQ' reference.context ∧
    planar.multisegmentInMultisegment sameX ⟨sameQ.edgeList⟩ reference.context =
      planar.multisegmentInMultisegment sameX' ⟨sameQ'.edgeList⟩ reference.context ∧
    planar.multisegmentInContour sameX sameQ reference.context =
      planar.multisegmentInContour sameX' sameQ' reference.context ∧
    planar.multisegmentInRegion sameX sameQ reference.context =
      planar.multisegmentInRegion sameX' sameQ' reference.context ∧
    planar.contourInContour sameQ sameT reference.context = planar.contourInContour sameQ' sameT' reference.context ∧
    planar.contourInRegion sameQ sameT reference.context = planar.contourInRegion sameQ' sameT' reference.context ∧
    planar.regionInRegion sameQ sameT reference.context = planar.regionInRegion sameQ' sameT' reference.context := by
  obtain ⟨s, s', hs⟩ := sameS_ok
  obtain ⟨nx, nx', x, x', hx⟩ := sameX_ok
  obtain ⟨q, q', t, t', u, u', h, h'⟩ := same_simple
  obtain ⟨cq, ct, cu, ch⟩ := same_contours
  obtain ⟨rq, rt, ru, rh⟩ := same_regions
  have off : ∀ {p : Point ℚ}, planar.pointInContour p sameQ reference.context = .exterior → p ∉ sameQ.pts :=
    fun {p} h hp => by rw [(contour_boundary ex p sameQ).mpr hp] at h; cases h
  have off' : ∀ {p : Point ℚ}, planar.pointInContour p sameQ' reference.context = .exterior → p ∉ sameQ'.pts :=
    fun {p} h hp => by rw [(contour_boundary ex p sameQ').mpr hp] at h; cases h
  refine ⟨?_, ?_, ?_, ?_, ?_, ?_, ?_, ?_, ?_, ?_⟩
  · exact C52_segment_in_segment ex s s' s s hs (fun _ => rfl)
  · exact C52_segment_in_multisegment ex s s' x x' (by decide +kernel) (by decide +kernel) hs hx
  · have k : sameQ.StrictCorners := by
      have key : ∀ e ∈ sameQ.edgeList, ∀ f ∈ sameQ.edgeList,
        e.finish = f.start → cross e.start e.finish f.finish ≠ 0 := by decide +kernel
      exact fun p v q hp hq => key _ hp _ hq rfl
    exact C52_segment_in_contour ex s s' q q k k hs (fun _ => rfl)
  · exact C52_segment_in_region ex s s' q q' (not_sharesPiece_of_check (by decide +kernel))
      (.inr (.inl (off (by decide +kernel)))) (.inr (.inl (off' (by decide +kernel)))) hs rq
  · exact C52_multisegment_in_multisegment_two ex nx (by decide +kernel) nx' (by decide +kernel) x q.valid x'
      q'.valid (fun p _ => q.atMostTwoWays p) hx ((sameMultisegment_iff ex).mpr (cq.sets ex))
  · exact C52_multisegment_in_contour ex nx nx' x x' q q' hx cq
  · exact C52_multisegment_in_region ex x x' q q' nx nx'
      (not_covered (p := ⟨0, 0⟩) ((contour_boundary ex _ _).mp (by decide +kernel)) (by decide +kernel)) hx rq
  · have k : (⟨8, 4⟩ : Point ℚ) ∈ sameQ.pts ∩ sameT.pts :=
      ⟨(contour_boundary ex _ _).mp (by decide +kernel), (contour_boundary ex _ _).mp (by decide +kernel)⟩
    have k' : (⟨8, 4⟩ : Point ℚ) ∈ sameQ'.pts ∩ sameT'.pts :=
      ⟨(contour_boundary ex _ _).mp (by decide +kernel), (contour_boundary ex _ _).mp (by decide +kernel)⟩
    exact C52_contour_in_contour ex q q' t t' (.inl ⟨_, k, by decide +kernel, by decide +kernel⟩)
      (.inl ⟨_, k', by decide +kernel, by decide +kernel⟩) cq ct
  · exact C52_contour_in_region ex q q' t t' cq rt
  · exact C52_region_in_region ex q q' t t' rq rt

/-- C52 applies to multiregions. -/
theorem C52_example_multiregion :
    planar.segmentInMultiregion sameS sameM reference.context =
      planar.segmentInMultiregion sameS' sameM' reference.context ∧
    planar.multisegmentInMultiregion sameX sameM reference.context =
      planar.multisegmentInMultiregion sameX' sameM' reference.context ∧
    planar.contourInMultiregion sameQ sameM reference.context =
      planar.contourInMultiregion sameQ' sameM' reference.context ∧
    planar.regionInMultiregion sameQ sameM reference.context =
      planar.regionInMultiregion sameQ' sameM' reference.context ∧
    planar.multiregionInMultiregion sameN sameM reference.context =
      planar.multiregionInMultiregion sameN' sameM' reference.context := by
  obtain ⟨s, s', hs⟩ := sameS_ok
  obtain ⟨nx, nx', x, x', hx⟩ := sameX_ok
  obtain ⟨q, q', -, -, -, -, -, -⟩ := same_simple
  obtain ⟨cq, -, -, -⟩ := same_contours
  obtain ⟨rq, -, -, -⟩ := same_regions
  obtain ⟨m, m', hm⟩ := sameM_ok
  obtain ⟨n, n', hn⟩ := sameN_ok
  have e : Neat (sameM.flatMap Contour.edgeList) := neat_of_check (by decide +kernel)
  have e' : Neat (sameM'.flatMap Contour.edgeList) := neat_of_check (by decide +kernel)
  refine ⟨?_, ?_, ?_, ?_, ?_⟩
  · exact C52_segment_in_multiregion ex s s' m m' e e' hs hm
  · refine C52_multisegment_in_multiregion ex x x' m m' nx nx' e e' ?_ ?_ hx hm
    · intro c hc
      simp only [sameM, List.mem_cons, List.not_mem_nil, or_false] at hc
      rcases hc with rfl | rfl
      · exact not_covered (p := ⟨4, 4⟩) ((contour_boundary ex _ _).mp (by decide +kernel)) (by decide +kernel)
      · exact not_covered (p := ⟨14, 0⟩) ((contour_boundary ex _ _).mp (by decide +kernel)) (by decide +kernel)
    · intro c hc
      simp only [sameM', List.mem_cons, List.not_mem_nil, or_false] at hc
      rcases hc with rfl | rfl
      · exact not_covered (p := ⟨14, 0⟩) ((contour_boundary ex _ _).mp (by decide +kernel)) (by decide +kernel)
      · exact not_covered (p := ⟨4, 4⟩) ((contour_boundary ex _ _).mp (by decide +kernel)) (by decide +kernel)
  · exact C52_contour_in_multiregion ex q q' m m' e e' cq hm
  · exact C52_region_in_multiregion ex q q' m m' (by simp [sameM]) (by simp [sameM']) rq hm
  · exact C52_multiregion_in_multiregion ex n n' m m' (by simp [sameN]) (by simp [sameN']) (by simp [sameM])
      (by simp [sameM']) hn hm

/-- The border and the hole of `sameG` have no common points, similarly for `sameG'`. -/
theorem sameG_off : sameG.border.pts ∩ Multiregion.pts sameG.holes = ∅ ∧
    sameG'.border.pts ∩ Multiregion.pts sameG'.holes = ∅ := by
  have key : ∀ {a b : Contour ℚ}, a.Simple → b.Simple →
      planar.contourInContour a b reference.context = .ok .disjoint → a.pts ∩ Multiregion.pts [b] = ∅ := by
    intro a b ha hb h
    have h : a.pts ∩ b.pts = ∅ := C36_contour_in_contour_sound ex ha hb (by simp) h
    simpa [Multiregion.pts] using h
  obtain ⟨q, q', t, t', u, u', h, h'⟩ := same_simple
  exact ⟨key q h (by decide +kernel), key q' h' (by decide +kernel)⟩

/-- C52 applies to polygons. -/
theorem C52_example_polygon :
    planar.segmentInPolygon sameS sameG reference.context = planar.segmentInPolygon sameS' sameG' reference.context ∧
    planar.multisegmentInPolygon sameX sameG reference.context =
      planar.multisegmentInPolygon sameX' sameG' reference.context ∧
    planar.contourInPolygon sameT sameG reference.context =
      planar.contourInPolygon sameT' sameG' reference.context ∧
    planar.regionInPolygon sameT sameG reference.context = planar.regionInPolygon sameT' sameG' reference.context ∧
    planar.multiregionInPolygon sameM sameG reference.context =
      planar.multiregionInPolygon sameM' sameG' reference.context ∧
    planar.polygonInPolygon sameF sameG reference.context =
      planar.polygonInPolygon sameF' sameG' reference.context := by
  obtain ⟨s, s', hs⟩ := sameS_ok
  obtain ⟨nx, nx', x, x', hx⟩ := sameX_ok
  obtain ⟨q, q', t, t', u, u', h, h'⟩ := same_simple
  obtain ⟨cq, ct, cu, ch⟩ := same_contours
  obtain ⟨rq, rt, ru, rh⟩ := same_regions
  obtain ⟨m, m', hm⟩ := sameM_ok
  obtain ⟨g, g', c, hg⟩ := sameG_ok
  obtain ⟨f, f', cf, hf⟩ := sameF_ok
  have e : Neat (sameG.holes.flatMap Contour.edgeList) := neat_of_check (by decide +kernel)
  have e' : Neat (sameG'.holes.flatMap Contour.edgeList) := neat_of_check (by decide +kernel)
  have off : ∀ {p : Point ℚ}, planar.pointInContour p sameQ reference.context = .exterior → p ∉ sameQ.pts :=
    fun {p} h hp => by rw [(contour_boundary ex p sameQ).mpr hp] at h; cases h
  have off' : ∀ {p : Point ℚ}, planar.pointInContour p sameQ' reference.context = .exterior → p ∉ sameQ'.pts :=
    fun {p} h hp => by rw [(contour_boundary ex p sameQ').mpr hp] at h; cases h
  refine ⟨?_, ?_, ?_, ?_, ?_, ?_⟩
  · exact C52_segment_in_polygon ex s s' g g' (not_sharesPiece_of_check (by decide +kernel))
      (not_sharesPiece_of_check (by decide +kernel)) (.inr (.inl (off (by decide +kernel))))
      (.inr (.inl (off' (by decide +kernel)))) e e' sameG_off.1 sameG_off.2 hs hg
  · exact C52_multisegment_in_polygon ex x x' g g' nx nx' (neat_of_check (by decide +kernel))
      (neat_of_check (by decide +kernel))
      (not_covered (p := ⟨0, 0⟩) (.inl ((contour_boundary ex _ _).mp (by decide +kernel))) (by decide +kernel))
      hx hg
  · exact C52_contour_in_polygon ex t t' g g' c e e' ct hg
  · exact C52_region_in_polygon ex t t' g g' c rt hg
  · exact C52_multiregion_in_polygon ex m m' g g' (by simp [sameM]) (by simp [sameM']) c hm hg
  · refine C52_polygon_in_polygon ex f f' g g' cf c ?_ ?_ ?_ ?_ hf hg
    · exact fun d hd => not_touch (g.holes.simple d hd) t (by revert d; decide +kernel)
    · exact fun d hd => absurd hd List.not_mem_nil
    · exact fun d hd => not_touch (g'.holes.simple d hd) t' (by revert d; decide +kernel)
    · exact fun d hd => absurd hd List.not_mem_nil

/-- C52 applies to multipolygons. -/
theorem C52_example_multipolygon :
    planar.segmentInMultipolygon sameS sameD reference.context =
      planar.segmentInMultipolygon sameS' sameD' reference.context ∧
    planar.multisegmentInMultipolygon sameX sameD reference.context =
      planar.multisegmentInMultipolygon sameX' sameD' reference.context ∧
    planar.contourInMultipolygon sameT sameD reference.context =
      planar.contourInMultipolygon sameT' sameD' reference.context ∧
    planar.regionInMultipolygon sameT sameD reference.context =
      planar.regionInMultipolygon sameT' sameD' reference.context ∧
    planar.multiregionInMultipolygon sameM sameD reference.context =
      planar.multiregionInMultipolygon sameM' sameD' reference.context ∧
    planar.polygonInMultipolygon sameF sameD reference.context =
      planar.polygonInMultipolygon sameF' sameD' reference.context ∧
    planar.multipolygonInMultipolygon sameE sameD reference.context =
      planar.multipolygonInMultipolygon sameE' sameD' reference.context := by
  obtain ⟨s, s', hs⟩ := sameS_ok
  obtain ⟨nx, nx', x, x', hx⟩ := sameX_ok
  obtain ⟨q, q', t, t', u, u', h, h'⟩ := same_simple
  obtain ⟨cq, ct, cu, ch⟩ := same_contours
  obtain ⟨rq, rt, ru, rh⟩ := same_regions
  obtain ⟨m, m', hm⟩ := sameM_ok
  obtain ⟨f, f', -, hf⟩ := sameF_ok
  obtain ⟨d, d', hd⟩ := sameD_ok
  obtain ⟨k, k', hk⟩ := sameE_ok
  have e : Neat (sameD.polygons.flatMap Polygon.edges) := neat_of_check (by decide +kernel)
  have e' : Neat (sameD'.polygons.flatMap Polygon.edges) := neat_of_check (by decide +kernel)
  have nd : sameD.polygons ≠ [] := by simp [sameD]
  have nd' : sameD'.polygons ≠ [] := by simp [sameD']
  refine ⟨?_, ?_, ?_, ?_, ?_, ?_, ?_⟩
  · exact C52_segment_in_multipolygon ex s s' d d' e e' hs hd
  · refine C52_multisegment_in_multipolygon ex x x' d d' nx nx' e e' ?_ ?_ hx hd
    · intro c hc
      simp only [sameD, List.mem_cons, List.not_mem_nil, or_false] at hc
      rcases hc with rfl | rfl
      · exact not_covered (p := ⟨0, 0⟩) (.inl ((contour_boundary ex _ _).mp (by decide +kernel)))
          (by decide +kernel)
      · exact not_covered (p := ⟨14, 0⟩) (.inl ((contour_boundary ex _ _).mp (by decide +kernel)))
          (by decide +kernel)
    · intro c hc
      simp only [sameD', List.mem_cons, List.not_mem_nil, or_false] at hc
      rcases hc with rfl | rfl
      · exact not_covered (p := ⟨14, 0⟩) (.inl ((contour_boundary ex _ _).mp (by decide +kernel)))
          (by decide +kernel)
      · exact not_covered (p := ⟨0, 0⟩) (.inl ((contour_boundary ex _ _).mp (by decide +kernel)))
          (by decide +kernel)
  · exact C52_contour_in_multipolygon ex t t' d d' e e' ct hd
  · exact C52_region_in_multipolygon ex t t' d d' nd nd' rt hd
  · exact C52_multiregion_in_multipolygon ex m m' d d' (by simp [sameM]) (by simp [sameM']) nd nd' (.inr e)
      (.inr e') hm hd
  · exact C52_polygon_in_multipolygon ex f f' d d' nd nd' (.inr e) (.inr e') hf hd
  · exact C52_multipolygon_in_multipolygon ex k k' d d' (by simp [sameE]) (by simp [sameE']) nd nd' (.inr e)
      (.inr e') hk hd

/-! ### the conditions are needed -/

/-- The answer for a segment and a multisegment of one segment differs from the answer for the same
multisegment divided into two segments. -/
theorem C52_counterexample_single :
    let s : Segment ℚ := ⟨⟨0, 0⟩, ⟨4, 0⟩⟩
    let m : Multisegment ℚ := ⟨[s]⟩
    let m' : Multisegment ℚ := ⟨[⟨⟨0, 0⟩, ⟨1, 0⟩⟩, ⟨⟨1, 0⟩, ⟨4, 0⟩⟩]⟩
    SegmentsValid m.segments ∧ SegmentsValid m'.segments ∧ SameMultisegment reference.context m m' ∧
      planar.segmentInMultisegment s m reference.context = .component ∧
      planar.segmentInMultisegment s m' reference.context = .equal := by
  intro s m m'
  have v : SegmentsValid m.segments := segmentsValid_of_check (by decide +kernel)
  have v' : SegmentsValid m'.segments := segmentsValid_of_check (by decide +kernel)
  refine ⟨v, v', (sameMultisegment_iff ex).mpr ?_, by decide +kernel, by decide +kernel⟩
  exact (C18_multisegment_in_multisegment_iff ex (by decide +kernel) (by decide +kernel) v v').1.mp
    (by decide +kernel)

/-- `TOUCH` is answered for multisegments which are divided at a common point, `CROSS` for the undivided
ones. -/
theorem C52_counterexample_multisegment :
    let a : Multisegment ℚ := ⟨[⟨⟨-2, 0⟩, ⟨2, 0⟩⟩]⟩
    let a' : Multisegment ℚ := ⟨[⟨⟨0, 0⟩, ⟨-2, 0⟩⟩, ⟨⟨0, 0⟩, ⟨2, 0⟩⟩]⟩
    let b : Multisegment ℚ := ⟨[⟨⟨-2, -1⟩, ⟨2, 1⟩⟩, ⟨⟨0, 0⟩, ⟨-2, 1⟩⟩, ⟨⟨0, 0⟩, ⟨0, -2⟩⟩]⟩
    let b' : Multisegment ℚ :=
      ⟨[⟨⟨0, 0⟩, ⟨2, 1⟩⟩, ⟨⟨0, 0⟩, ⟨-2, -1⟩⟩, ⟨⟨0, 0⟩, ⟨-2, 1⟩⟩, ⟨⟨0, 0⟩, ⟨0, -2⟩⟩]⟩
    (∀ m ∈ [a, a', b, b'], SegmentsValid m.segments) ∧ SameMultisegment reference.context a a' ∧
      SameMultisegment reference.context b b' ∧
      planar.multisegmentInMultisegment a b reference.context = .ok .cross ∧
      planar.multisegmentInMultisegment a' b' reference.context = .ok .touch := by
  intro a a' b b'
  have va : SegmentsValid a.segments := segmentsValid_of_check (by decide +kernel)
  have va' : SegmentsValid a'.segments := segmentsValid_of_check (by decide +kernel)
  have vb : SegmentsValid b.segments := segmentsValid_of_check (by decide +kernel)
  have vb' : SegmentsValid b'.segments := segmentsValid_of_check (by decide +kernel)
  refine ⟨by simp [va, va', vb, vb'], (sameMultisegment_iff ex).mpr ?_, (sameMultisegment_iff ex).mpr ?_,
    by decide +kernel, by decide +kernel⟩
  · exact (C18_multisegment_in_multisegment_iff ex (by decide +kernel) (by decide +kernel) va va').1.mp
      (by decide +kernel)
  · exact (C18_multisegment_in_multisegment_iff ex (by decide +kernel) (by decide +kernel) vb vb').1.mp
      (by decide +kernel)

/-- Superfluous vertices of a contour change the answers of `segment_in_contour` and of
`contour_in_contour`. -/
theorem C52_counterexample_contour :
    let c : Contour ℚ := ⟨[⟨0, 0⟩, ⟨4, 0⟩, ⟨4, 4⟩, ⟨0, 4⟩]⟩
    c.Simple ∧ exampleSquare.Simple ∧ SameContour reference.context c exampleSquare ∧
      planar.segmentInContour ⟨⟨0, 0⟩, ⟨4, 0⟩⟩ c reference.context = .ok .component ∧
      planar.segmentInContour ⟨⟨0, 0⟩, ⟨4, 0⟩⟩ exampleSquare reference.context = .ok .overlap ∧
      planar.contourInContour c exampleDiamond reference.context = .ok .cross ∧
      planar.contourInContour exampleSquare exampleDiamond reference.context = .ok .touch := by
  intro c
  have v : c.Simple := Contour.simple_of_check (by decide +kernel)
  exact ⟨v, C36_counterexample.1, sameContour_of v C36_counterexample.1 (by decide +kernel), by decide +kernel,
    by decide +kernel, by decide +kernel, by decide +kernel⟩

end Orient.Props
