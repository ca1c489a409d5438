import Verif.Spec.Locations
import Verif.Props.SameSets

/-! C54: relations of geometries in terms of the locations of points. -/

set_option linter.unusedSectionVars false

namespace Orient.Props

variable {K : Type} [Field K] [LinearOrder K] [IsStrictOrderedRing K]

/-- The function tells where points are with respect to an areal geometry. -/
structure Located (l : Point K → Location) (I B E : Set (Point K)) : Prop where
  interior : ∀ p, l p = .interior ↔ p ∈ I
  boundary : ∀ p, l p = .boundary ↔ p ∈ B
  exterior : ∀ p, l p = .exterior ↔ p ∈ E

/-- Statements about locations are statements about sets of points. -/
theorem linearLocations_iff {l l' : Point K → Location} {S I B E : Set (Point K)}
    (h : ∀ p, l p = .boundary ↔ p ∈ S) (h' : Located l' I B E) (r : Relation) :
    LinearLocations l l' r ↔ LinearCompoundRel S I B E r := by
  obtain ⟨i, b, e⟩ := h'
  cases r <;>
    simp only [LinearLocations, LinearCompoundRel, h, i, b, e, Set.subset_def, Set.eq_empty_iff_forall_notMem,
      Set.Nonempty, Set.mem_inter_iff, not_and, ne_eq]

theorem arealLocations_iff {l l' : Point K → Location} {I B E I' B' E' : Set (Point K)}
    (h : Located l I B E) (h' : Located l' I' B' E') (r : Relation) :
    ArealLocations l l' r ↔ CompoundRel I B E I' B' E' r := by
  have t : ∀ {l : Point K → Location} {I B E : Set (Point K)}, Located l I B E →
      ∀ p, (p ∈ I ∧ p ∉ B ∧ p ∉ E) ∨ (p ∉ I ∧ p ∈ B ∧ p ∉ E) ∨ (p ∉ I ∧ p ∉ B ∧ p ∈ E) := by
    intro l I B E h p
    have := h.interior p
    have := h.boundary p
    have := h.exterior p
    cases e : l p <;> simp_all
  have t1 := t h
  have t2 := t h'
  have n : ∀ p, l p = l' p ↔ ((p ∈ I ↔ p ∈ I') ∧ (p ∈ B ↔ p ∈ B')) := by
    intro p
    rw [← h.interior, ← h.boundary, ← h'.interior, ← h'.boundary]
    cases l p <;> cases l' p <;> simp
  have n' : ∀ p, l' p = l p ↔ ((p ∈ I ↔ p ∈ I') ∧ (p ∈ B ↔ p ∈ B')) := fun p => by rw [eq_comm, n]
  obtain ⟨i, b, e⟩ := h
  obtain ⟨i', b', e'⟩ := h'
  cases r <;>
    simp only [ArealLocations, CompoundRel, n, n', i, b, e, i', b', e', Set.subset_def, Set.ext_iff, Set.Nonempty,
      Set.mem_inter_iff, Set.mem_union, Set.mem_empty_iff_false, ne_eq] <;>
    grind

section

variable {context : Context K} (hc : context.Exact)

include hc

theorem segment_located (a : Segment K) (p : Point K) :
    planar.pointInSegment p a context = .boundary ↔ p ∈ a.pts := (C01_point_in_segment hc p a).1

theorem multisegment_located (a : Multisegment K) (p : Point K) :
    planar.pointInMultisegment p a context = .boundary ↔ p ∈ segsPts a.segments :=
  (C03_point_in_multisegment hc p a).1

theorem contour_located (a : Contour K) (p : Point K) :
    planar.pointInContour p a context = .boundary ↔ p ∈ a.pts := contour_boundary hc p a

theorem region_located {a : Region K} (_ : Contour.Simple a) :
    Located (planar.pointInRegion · a context) (Contour.interior a) (Contour.pts a) (Contour.exterior a) :=
  ⟨fun p => C10_point_in_region_unique hc p a _, fun p => C10_point_in_region_unique hc p a _,
    fun p => C10_point_in_region_unique hc p a _⟩

theorem multiregion_located {a : Multiregion K} (h : Multiregion.Valid a) :
    Located (planar.pointInMultiregion · a context) (Multiregion.interior a) (Multiregion.pts a)
      (Multiregion.exterior a) :=
  ⟨fun p => (C14_valid hc p h).1, fun p => (C14_valid hc p h).2.1, fun p => (C14_valid hc p h).2.2⟩

theorem polygon_located {a : Polygon K} (h : a.Valid) :
    Located (planar.pointInPolygon · a context) a.interior a.pts a.exterior :=
  ⟨fun p => (C15_valid hc p h).1, fun p => (C15_valid hc p h).2.1, fun p => (C15_valid hc p h).2.2⟩

theorem multipolygon_located {a : Multipolygon K} (h : a.Valid) :
    Located (planar.pointInMultipolygon · a context) a.interior a.pts a.exterior :=
  ⟨fun p => (C16_valid hc p h).1, fun p => (C16_valid hc p h).2.1, fun p => (C16_valid hc p h).2.2⟩

/-- C54: `region_in_region`. -/
theorem C54_region_in_region {a : Region K} {b : Region K}
    (va : Contour.Simple a) (vb : Contour.Simple b)
    (r : Relation) :
    planar.regionInRegion a b context = .ok r ↔
      ArealLocations (planar.pointInRegion · a context) (planar.pointInRegion · b context) r := by
  rw [C32_region_in_region_iff hc va vb]
  exact (arealLocations_iff (region_located hc va) (region_located hc vb) r).symm

/-- C54: `contour_in_region`. -/
theorem C54_contour_in_region {a : Contour K} {b : Region K}
    (va : a.Simple) (vb : Contour.Simple b)
    (r : Relation) :
    planar.contourInRegion a b context = .ok r ↔
      LinearLocations (planar.pointInContour · a context) (planar.pointInRegion · b context) r := by
  rw [C33_contour_in_region_iff hc va vb]
  exact (linearLocations_iff (contour_located hc a) (region_located hc vb) r).symm

/-- C54: `multisegment_in_region`. -/
theorem C54_multisegment_in_region {a : Multisegment K} {b : Region K}
    (va : SegmentsValid a.segments) (vb : Contour.Simple b)
    (na : a.segments ≠ [])
    (hn : ¬ Contour.pts b ⊆ segsPts a.segments)
    (r : Relation) :
    planar.multisegmentInRegion a b context = .ok r ↔
      LinearLocations (planar.pointInMultisegment · a context) (planar.pointInRegion · b context) r := by
  rw [C34_multisegment_in_region_iff hc na va vb hn]
  exact (linearLocations_iff (multisegment_located hc a) (region_located hc vb) r).symm

/-- C54: `segment_in_multiregion`. -/
theorem C54_segment_in_multiregion {a : Segment K} {b : Multiregion K}
    (va : a.Nondegenerate) (vb : Multiregion.Valid b)
    (neat : Neat (b.flatMap Contour.edgeList))
    (r : Relation) :
    planar.segmentInMultiregion a b context = .ok r ↔
      LinearLocations (planar.pointInSegment · a context) (planar.pointInMultiregion · b context) r := by
  rw [C37_segment_in_multiregion_iff hc va vb neat]
  exact (linearLocations_iff (segment_located hc a) (multiregion_located hc vb) r).symm

/-- C54: `multisegment_in_multiregion`. -/
theorem C54_multisegment_in_multiregion {a : Multisegment K} {b : Multiregion K}
    (va : SegmentsValid a.segments) (vb : Multiregion.Valid b)
    (na : a.segments ≠ [])
    (neat : Neat (b.flatMap Contour.edgeList))
    (hn : ∀ c ∈ b, ¬ Contour.pts c ⊆ segsPts a.segments)
    (r : Relation) :
    planar.multisegmentInMultiregion a b context = .ok r ↔
      LinearLocations (planar.pointInMultisegment · a context) (planar.pointInMultiregion · b context) r := by
  rw [C37_multisegment_in_multiregion_iff hc na va vb neat hn]
  exact (linearLocations_iff (multisegment_located hc a) (multiregion_located hc vb) r).symm

/-- C54: `contour_in_multiregion`. -/
theorem C54_contour_in_multiregion {a : Contour K} {b : Multiregion K}
    (va : a.Simple) (vb : Multiregion.Valid b)
    (neat : Neat (b.flatMap Contour.edgeList))
    (r : Relation) :
    planar.contourInMultiregion a b context = .ok r ↔
      LinearLocations (planar.pointInContour · a context) (planar.pointInMultiregion · b context) r := by
  rw [C37_contour_in_multiregion_iff hc va vb neat]
  exact (linearLocations_iff (contour_located hc a) (multiregion_located hc vb) r).symm

/-- C54: `region_in_multiregion`. -/
theorem C54_region_in_multiregion {a : Region K} {b : Multiregion K}
    (va : Contour.Simple a) (vb : Multiregion.Valid b)
    (nb : b ≠ [])
    (r : Relation) :
    planar.regionInMultiregion a b context = .ok r ↔
      ArealLocations (planar.pointInRegion · a context) (planar.pointInMultiregion · b context) r := by
  rw [C38_region_in_multiregion_iff hc va vb nb]
  exact (arealLocations_iff (region_located hc va) (multiregion_located hc vb) r).symm

/-- C54: `multiregion_in_multiregion`. -/
theorem C54_multiregion_in_multiregion {a : Multiregion K} {b : Multiregion K}
    (va : Multiregion.Valid a) (vb : Multiregion.Valid b)
    (na : a ≠ [])
    (nb : b ≠ [])
    (r : Relation) :
    planar.multiregionInMultiregion a b context = .ok r ↔
      ArealLocations (planar.pointInMultiregion · a context) (planar.pointInMultiregion · b context) r := by
  rw [C38_multiregion_in_multiregion_iff hc va vb na nb]
  exact (arealLocations_iff (multiregion_located hc va) (multiregion_located hc vb) r).symm

/-- C54: `multisegment_in_polygon`. -/
theorem C54_multisegment_in_polygon {a : Multisegment K} {b : Polygon K}
    (va : SegmentsValid a.segments) (vb : b.Valid)
    (na : a.segments ≠ [])
    (neat : Neat b.edges)
    (hn : ¬ b.pts ⊆ segsPts a.segments)
    (r : Relation) :
    planar.multisegmentInPolygon a b context = .ok r ↔
      LinearLocations (planar.pointInMultisegment · a context) (planar.pointInPolygon · b context) r := by
  rw [C39_multisegment_in_polygon_iff hc na va vb neat hn]
  exact (linearLocations_iff (multisegment_located hc a) (polygon_located hc vb) r).symm

/-- C54: `contour_in_polygon`. -/
theorem C54_contour_in_polygon {a : Contour K} {b : Polygon K}
    (va : a.Simple) (vb : b.Valid)
    (conn : b.Connected)
    (neat : Neat (b.holes.flatMap Contour.edgeList))
    (r : Relation) :
    planar.contourInPolygon a b context = .ok r ↔
      LinearLocations (planar.pointInContour · a context) (planar.pointInPolygon · b context) r := by
  rw [C26_contour_in_polygon_iff hc va vb conn neat]
  exact (linearLocations_iff (contour_located hc a) (polygon_located hc vb) r).symm

/-- C54: `region_in_polygon`. -/
theorem C54_region_in_polygon {a : Region K} {b : Polygon K}
    (va : Contour.Simple a) (vb : b.Valid)
    (conn : b.Connected)
    (r : Relation) :
    planar.regionInPolygon a b context = .ok r ↔
      ArealLocations (planar.pointInRegion · a context) (planar.pointInPolygon · b context) r := by
  rw [C26_region_in_polygon_iff hc va vb conn]
  exact (arealLocations_iff (region_located hc va) (polygon_located hc vb) r).symm

/-- C54: `multiregion_in_polygon`. -/
theorem C54_multiregion_in_polygon {a : Multiregion K} {b : Polygon K}
    (va : Multiregion.Valid a) (vb : b.Valid)
    (na : a ≠ [])
    (conn : b.Connected)
    (r : Relation) :
    planar.multiregionInPolygon a b context = .ok r ↔
      ArealLocations (planar.pointInMultiregion · a context) (planar.pointInPolygon · b context) r := by
  rw [C26_multiregion_in_polygon_iff hc va na vb (.inr conn)]
  exact (arealLocations_iff (multiregion_located hc va) (polygon_located hc vb) r).symm

/-- C54: `segment_in_multipolygon`. -/
theorem C54_segment_in_multipolygon {a : Segment K} {b : Multipolygon K}
    (va : a.Nondegenerate) (vb : b.Valid)
    (neat : Neat (b.polygons.flatMap Polygon.edges))
    (r : Relation) :
    planar.segmentInMultipolygon a b context = .ok r ↔
      LinearLocations (planar.pointInSegment · a context) (planar.pointInMultipolygon · b context) r := by
  rw [C40_segment_in_multipolygon_iff hc va vb neat]
  exact (linearLocations_iff (segment_located hc a) (multipolygon_located hc vb) r).symm

/-- C54: `multisegment_in_multipolygon`. -/
theorem C54_multisegment_in_multipolygon {a : Multisegment K} {b : Multipolygon K}
    (va : SegmentsValid a.segments) (vb : b.Valid)
    (na : a.segments ≠ [])
    (neat : Neat (b.polygons.flatMap Polygon.edges))
    (hn : ∀ g ∈ b.polygons, ¬ Polygon.pts g ⊆ segsPts a.segments)
    (r : Relation) :
    planar.multisegmentInMultipolygon a b context = .ok r ↔
      LinearLocations (planar.pointInMultisegment · a context) (planar.pointInMultipolygon · b context) r := by
  rw [C40_multisegment_in_multipolygon_iff hc na va vb neat hn]
  exact (linearLocations_iff (multisegment_located hc a) (multipolygon_located hc vb) r).symm

/-- C54: `contour_in_multipolygon`. -/
theorem C54_contour_in_multipolygon {a : Contour K} {b : Multipolygon K}
    (va : a.Simple) (vb : b.Valid)
    (neat : Neat (b.polygons.flatMap Polygon.edges))
    (r : Relation) :
    planar.contourInMultipolygon a b context = .ok r ↔
      LinearLocations (planar.pointInContour · a context) (planar.pointInMultipolygon · b context) r := by
  rw [C40_contour_in_multipolygon_iff hc va vb neat]
  exact (linearLocations_iff (contour_located hc a) (multipolygon_located hc vb) r).symm

/-- C54: `region_in_multipolygon`. -/
theorem C54_region_in_multipolygon {a : Region K} {b : Multipolygon K}
    (va : Contour.Simple a) (vb : b.Valid)
    (nb : b.polygons ≠ [])
    (r : Relation) :
    planar.regionInMultipolygon a b context = .ok r ↔
      ArealLocations (planar.pointInRegion · a context) (planar.pointInMultipolygon · b context) r := by
  rw [C41_region_in_multipolygon_iff hc va vb nb]
  exact (arealLocations_iff (region_located hc va) (multipolygon_located hc vb) r).symm

/-- C54: `multiregion_in_multipolygon`. -/
theorem C54_multiregion_in_multipolygon {a : Multiregion K} {b : Multipolygon K}
    (va : Multiregion.Valid a) (vb : b.Valid)
    (na : a ≠ [])
    (nb : b.polygons ≠ [])
    (neat : Neat (a.flatMap Contour.edgeList) ∨ Neat (b.polygons.flatMap Polygon.edges))
    (r : Relation) :
    planar.multiregionInMultipolygon a b context = .ok r ↔
      ArealLocations (planar.pointInMultiregion · a context) (planar.pointInMultipolygon · b context) r := by
  rw [C41_multiregion_in_multipolygon_iff hc va vb na nb neat]
  exact (arealLocations_iff (multiregion_located hc va) (multipolygon_located hc vb) r).symm

/-- C54: `polygon_in_multipolygon`. -/
theorem C54_polygon_in_multipolygon {a : Polygon K} {b : Multipolygon K}
    (va : a.Valid) (vb : b.Valid)
    (nb : b.polygons ≠ [])
    (neat : Neat a.edges ∨ Neat (b.polygons.flatMap Polygon.edges))
    (r : Relation) :
    planar.polygonInMultipolygon a b context = .ok r ↔
      ArealLocations (planar.pointInPolygon · a context) (planar.pointInMultipolygon · b context) r := by
  rw [C41_polygon_in_multipolygon_iff hc va vb nb neat]
  exact (arealLocations_iff (polygon_located hc va) (multipolygon_located hc vb) r).symm

/-- C54: `multipolygon_in_multipolygon`. -/
theorem C54_multipolygon_in_multipolygon {a : Multipolygon K} {b : Multipolygon K}
    (va : a.Valid) (vb : b.Valid)
    (na : a.polygons ≠ [])
    (nb : b.polygons ≠ [])
    (neat : Neat (a.polygons.flatMap Polygon.edges) ∨ Neat (b.polygons.flatMap Polygon.edges))
    (r : Relation) :
    planar.multipolygonInMultipolygon a b context = .ok r ↔
      ArealLocations (planar.pointInMultipolygon · a context) (planar.pointInMultipolygon · b context) r := by
  rw [C41_multipolygon_in_multipolygon_iff hc va vb na nb neat]
  exact (arealLocations_iff (multipolygon_located hc va) (multipolygon_located hc vb) r).symm

/-- C54: `segment_in_region`, under the conditions of C43. -/
theorem C54_segment_in_region {a : Segment K} {b : Region K} (va : a.Nondegenerate) (vb : Contour.Simple b)
    (hno : ¬ SharesPiece a.pts (Contour.pts b))
    (hside : Counterclockwise b ∨ a.start ∉ Contour.pts b ∨ a.finish ∉ Contour.pts b ∨
      (a.start ∉ Contour.vertices b ∧ a.finish ∉ Contour.vertices b)) (r : Relation) :
    planar.segmentInRegion a b context = .ok r ↔
      LinearLocations (planar.pointInSegment · a context) (planar.pointInRegion · b context) r := by
  rw [C43_segment_in_region_iff hc va vb hno hside]
  exact (linearLocations_iff (segment_located hc a) (region_located hc vb) r).symm

/-- C54: `polygon_in_polygon`, under the conditions of C49. -/
theorem C54_polygon_in_polygon {a b : Polygon K} (va : a.Valid) (vb : b.Valid) (ca : a.Connected)
    (cb : b.Connected) (h1 : ∀ d ∈ b.holes, ¬ RegionRel d a.border .touch)
    (h2 : ∀ d ∈ a.holes, ¬ RegionRel d b.border .touch) (r : Relation) :
    planar.polygonInPolygon a b context = .ok r ↔
      ArealLocations (planar.pointInPolygon · a context) (planar.pointInPolygon · b context) r := by
  rw [C25_polygon_in_polygon_iff hc va vb ca cb h1 h2]
  exact (arealLocations_iff (polygon_located hc va) (polygon_located hc vb) r).symm

/-- C54: `segment_in_polygon`, under the conditions of `C26_segment_beside_border`. -/
theorem C54_segment_in_polygon {a : Segment K} {b : Polygon K} (va : a.Nondegenerate) (vb : b.Valid)
    (hno : ¬ SharesPiece a.pts b.border.pts)
    (hside : Counterclockwise b.border ∨ a.start ∉ b.border.pts ∨ a.finish ∉ b.border.pts ∨
      (a.start ∉ b.border.vertices ∧ a.finish ∉ b.border.vertices))
    (neat : Neat (b.holes.flatMap Contour.edgeList)) (hoff : b.border.pts ∩ Multiregion.pts b.holes = ∅)
    (r : Relation) :
    planar.segmentInPolygon a b context = .ok r ↔
      LinearLocations (planar.pointInSegment · a context) (planar.pointInPolygon · b context) r := by
  rw [linearLocations_iff (segment_located hc a) (polygon_located hc vb) r]
  obtain ⟨q, hq, h⟩ := C26_segment_beside_border hc va vb hno hside neat hoff
  obtain ⟨s1, s2, s3⟩ := polygon_apart vb
  rw [hq]
  constructor
  · intro e
    cases e
    exact h
  · intro k
    rw [LinearCompoundRel.unique ⟨_, a.start_mem⟩ s1 s2 s3 h k]

end

end Orient.Props
