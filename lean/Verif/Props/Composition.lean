import Verif.Lemmas.Composing
import Verif.Props.Locations

/-! C55: relations of three geometries fit together. -/

set_option linter.unusedSectionVars false

namespace Orient.Props

variable {K : Type} [Field K] [LinearOrder K]

/-- An areal geometry. -/
inductive Area (K : Type) where
  | region (c : Region K)
  | multiregion (m : Multiregion K)
  | polygon (g : Polygon K)
  | multipolygon (m : Multipolygon K)

/-- The location of a point with respect to an areal geometry, by the function of the API. -/
def Area.locate (context : Context K) : Area K → Point K → Location
  | .region c, p => planar.pointInRegion p c context
  | .multiregion m, p => planar.pointInMultiregion p m context
  | .polygon g, p => planar.pointInPolygon p g context
  | .multipolygon m, p => planar.pointInMultipolygon p m context

/-- The relation of areal geometries by the function of the API; if there is only a function for the operands
in the opposite order, its complement. -/
def Area.relate (context : Context K) : Area K → Area K → Py Relation
  | .region a, .region b => planar.regionInRegion a b context
  | .region a, .multiregion b => planar.regionInMultiregion a b context
  | .region a, .polygon b => planar.regionInPolygon a b context
  | .region a, .multipolygon b => planar.regionInMultipolygon a b context
  | .multiregion a, .region b => (planar.regionInMultiregion b a context).map Relation.complement
  | .multiregion a, .multiregion b => planar.multiregionInMultiregion a b context
  | .multiregion a, .polygon b => planar.multiregionInPolygon a b context
  | .multiregion a, .multipolygon b => planar.multiregionInMultipolygon a b context
  | .polygon a, .region b => (planar.regionInPolygon b a context).map Relation.complement
  | .polygon a, .multiregion b => (planar.multiregionInPolygon b a context).map Relation.complement
  | .polygon a, .polygon b => planar.polygonInPolygon a b context
  | .polygon a, .multipolygon b => planar.polygonInMultipolygon a b context
  | .multipolygon a, .region b => (planar.regionInMultipolygon b a context).map Relation.complement
  | .multipolygon a, .multiregion b => (planar.multiregionInMultipolygon b a context).map Relation.complement
  | .multipolygon a, .polygon b => (planar.polygonInMultipolygon b a context).map Relation.complement
  | .multipolygon a, .multipolygon b => planar.multipolygonInMultipolygon a b context

/-- A valid non-empty areal geometry. -/
def Area.Valid : Area K → Prop
  | .region c => Contour.Simple c
  | .multiregion m => Multiregion.Valid m ∧ m ≠ []
  | .polygon g => g.Valid
  | .multipolygon m => m.Valid ∧ m.polygons ≠ []

/-- The conditions under which the relation of the geometries is right (C48, C49). -/
def Area.Suits : Area K → Area K → Prop
  | .region _, .polygon b => b.Connected
  | .polygon a, .region _ => a.Connected
  | .multiregion _, .polygon b => b.Connected
  | .polygon a, .multiregion _ => a.Connected
  | .multiregion a, .multipolygon b => Neat (a.flatMap Contour.edgeList) ∨ Neat (b.polygons.flatMap Polygon.edges)
  | .multipolygon a, .multiregion b => Neat (b.flatMap Contour.edgeList) ∨ Neat (a.polygons.flatMap Polygon.edges)
  | .polygon a, .polygon b => a.Connected ∧ b.Connected ∧ (∀ d ∈ b.holes, ¬ RegionRel d a.border .touch) ∧
      ∀ d ∈ a.holes, ¬ RegionRel d b.border .touch
  | .polygon a, .multipolygon b => Neat a.edges ∨ Neat (b.polygons.flatMap Polygon.edges)
  | .multipolygon a, .polygon b => Neat b.edges ∨ Neat (a.polygons.flatMap Polygon.edges)
  | .multipolygon a, .multipolygon b =>
    Neat (a.polygons.flatMap Polygon.edges) ∨ Neat (b.polygons.flatMap Polygon.edges)
  | _, _ => True

/-- A linear geometry. -/
inductive Line (K : Type) where
  | segment (s : Segment K)
  | multisegment (m : Multisegment K)
  | contour (c : Contour K)

/-- The location of a point with respect to a linear geometry, by the function of the API. -/
def Line.locate (context : Context K) : Line K → Point K → Location
  | .segment s, p => planar.pointInSegment p s context
  | .multisegment m, p => planar.pointInMultisegment p m context
  | .contour c, p => planar.pointInContour p c context

/-- The relation of a linear geometry to an areal one by the function of the API. -/
def Line.relate (context : Context K) : Line K → Area K → Py Relation
  | .segment a, .region b => planar.segmentInRegion a b context
  | .segment a, .multiregion b => planar.segmentInMultiregion a b context
  | .segment a, .polygon b => planar.segmentInPolygon a b context
  | .segment a, .multipolygon b => planar.segmentInMultipolygon a b context
  | .multisegment a, .region b => planar.multisegmentInRegion a b context
  | .multisegment a, .multiregion b => planar.multisegmentInMultiregion a b context
  | .multisegment a, .polygon b => planar.multisegmentInPolygon a b context
  | .multisegment a, .multipolygon b => planar.multisegmentInMultipolygon a b context
  | .contour a, .region b => planar.contourInRegion a b context
  | .contour a, .multiregion b => planar.contourInMultiregion a b context
  | .contour a, .polygon b => planar.contourInPolygon a b context
  | .contour a, .multipolygon b => planar.contourInMultipolygon a b context

/-- A valid non-empty linear geometry. -/
def Line.Valid : Line K → Prop
  | .segment s => s.Nondegenerate
  | .multisegment m => SegmentsValid m.segments ∧ m.segments ≠ []
  | .contour c => c.Simple

/-- The relation of linear geometries by the function of the API; if there is only a function for the operands in
the opposite order, its complement. -/
def Line.relateLine (context : Context K) : Line K → Line K → Py Relation
  | .segment a, .segment b => .ok (planar.segmentInSegment a b context)
  | .segment a, .multisegment b => .ok (planar.segmentInMultisegment a b context)
  | .segment a, .contour b => planar.segmentInContour a b context
  | .multisegment a, .segment b => .ok (planar.segmentInMultisegment b a context).complement
  | .multisegment a, .multisegment b => planar.multisegmentInMultisegment a b context
  | .multisegment a, .contour b => planar.multisegmentInContour a b context
  | .contour a, .segment b => (planar.segmentInContour b a context).map Relation.complement
  | .contour a, .multisegment b => (planar.multisegmentInContour b a context).map Relation.complement
  | .contour a, .contour b => planar.contourInContour a b context

/-- The conditions under which the relation of the linear geometry to the areal one is right (C43, C44, C46, C47,
C49). -/
def Line.Suits : Line K → Area K → Prop
  | .segment a, .region b => ¬ SharesPiece a.pts (Contour.pts b) ∧
      (Counterclockwise b ∨ a.start ∉ Contour.pts b ∨ a.finish ∉ Contour.pts b ∨
        (a.start ∉ Contour.vertices b ∧ a.finish ∉ Contour.vertices b))
  | .segment _, .multiregion b => Neat (b.flatMap Contour.edgeList)
  | .segment a, .polygon b => ¬ SharesPiece a.pts b.border.pts ∧
      (Counterclockwise b.border ∨ a.start ∉ b.border.pts ∨ a.finish ∉ b.border.pts ∨
        (a.start ∉ b.border.vertices ∧ a.finish ∉ b.border.vertices)) ∧
      Neat (b.holes.flatMap Contour.edgeList) ∧ b.border.pts ∩ Multiregion.pts b.holes = ∅
  | .segment _, .multipolygon b => Neat (b.polygons.flatMap Polygon.edges)
  | .multisegment a, .region b => ¬ Contour.pts b ⊆ segsPts a.segments
  | .multisegment a, .multiregion b => Neat (b.flatMap Contour.edgeList) ∧
      ∀ c ∈ b, ¬ Contour.pts c ⊆ segsPts a.segments
  | .multisegment a, .polygon b => Neat b.edges ∧ ¬ b.pts ⊆ segsPts a.segments
  | .multisegment a, .multipolygon b => Neat (b.polygons.flatMap Polygon.edges) ∧
      ∀ g ∈ b.polygons, ¬ g.pts ⊆ segsPts a.segments
  | .contour _, .region _ => True
  | .contour _, .multiregion b => Neat (b.flatMap Contour.edgeList)
  | .contour _, .polygon b => b.Connected ∧ Neat (b.holes.flatMap Contour.edgeList)
  | .contour _, .multipolygon b => Neat (b.polygons.flatMap Polygon.edges)

variable [IsStrictOrderedRing K]

theorem arealLocations_complement {l l' : Point K → Location} (r : Relation) :
    ArealLocations l l' r.complement ↔ ArealLocations l' l r := by
  cases r <;> simp only [ArealLocations, Relation.complement] <;> grind

theorem map_complement {x : Py Relation} {r : Relation} :
    x.map Relation.complement = .ok r ↔ x = .ok r.complement := by
  rcases x with e | q
  · simp [Except.map]
  · simp only [Except.map, Except.ok.injEq]
    cases q <;> cases r <;> simp [Relation.complement]

section

variable {context : Context K} (hc : context.Exact)

include hc

/-- C54 for any two areal geometries. -/
theorem C54_areas {a b : Area K} (va : a.Valid) (vb : b.Valid) (h : a.Suits b) (r : Relation) :
    a.relate context b = .ok r ↔ ArealLocations (a.locate context) (b.locate context) r := by
  rcases a with a | a | a | a <;> rcases b with b | b | b | b <;>
    simp only [Area.relate, Area.Valid, Area.Suits] at va vb h ⊢
  · exact C54_region_in_region hc va vb r
  · exact C54_region_in_multiregion hc va vb.1 vb.2 r
  · exact C54_region_in_polygon hc va vb h r
  · exact C54_region_in_multipolygon hc va vb.1 vb.2 r
  · rw [map_complement, C54_region_in_multiregion hc vb va.1 va.2, arealLocations_complement]; rfl
  · exact C54_multiregion_in_multiregion hc va.1 vb.1 va.2 vb.2 r
  · exact C54_multiregion_in_polygon hc va.1 vb va.2 h r
  · exact C54_multiregion_in_multipolygon hc va.1 vb.1 va.2 vb.2 h r
  · rw [map_complement, C54_region_in_polygon hc vb va h, arealLocations_complement]; rfl
  · rw [map_complement, C54_multiregion_in_polygon hc vb.1 va vb.2 h, arealLocations_complement]; rfl
  · exact C54_polygon_in_polygon hc va vb h.1 h.2.1 h.2.2.1 h.2.2.2 r
  · exact C54_polygon_in_multipolygon hc va vb.1 vb.2 h r
  · rw [map_complement, C54_region_in_multipolygon hc vb va.1 va.2, arealLocations_complement]; rfl
  · rw [map_complement, C54_multiregion_in_multipolygon hc vb.1 va.1 vb.2 va.2 h, arealLocations_complement]; rfl
  · rw [map_complement, C54_polygon_in_multipolygon hc vb va.1 va.2 h, arealLocations_complement]; rfl
  · exact C54_multipolygon_in_multipolygon hc va.1 vb.1 va.2 vb.2 h r

/-- C54 for any linear geometry and any areal one. -/
theorem C54_lines {a : Line K} {b : Area K} (va : a.Valid) (vb : b.Valid) (h : a.Suits b) (r : Relation) :
    a.relate context b = .ok r ↔ LinearLocations (a.locate context) (b.locate context) r := by
  rcases a with a | a | a <;> rcases b with b | b | b | b <;>
    simp only [Line.relate, Line.Valid, Area.Valid, Line.Suits] at va vb h ⊢
  · exact C54_segment_in_region hc va vb h.1 h.2 r
  · exact C54_segment_in_multiregion hc va vb.1 h r
  · exact C54_segment_in_polygon hc va vb h.1 h.2.1 h.2.2.1 h.2.2.2 r
  · exact C54_segment_in_multipolygon hc va vb.1 h r
  · exact C54_multisegment_in_region hc va.1 vb va.2 h r
  · exact C54_multisegment_in_multiregion hc va.1 vb.1 va.2 h.1 h.2 r
  · exact C54_multisegment_in_polygon hc va.1 vb va.2 h.1 h.2 r
  · exact C54_multisegment_in_multipolygon hc va.1 vb.1 va.2 h.1 h.2 r
  · exact C54_contour_in_region hc va vb r
  · exact C54_contour_in_multiregion hc va vb.1 h r
  · exact C54_contour_in_polygon hc va vb h.1 h.2 r
  · exact C54_contour_in_multipolygon hc va vb.1 h r

/-- There are points inside and on the boundary of an areal geometry. -/
theorem area_inhabited {a : Area K} (va : a.Valid) :
    ∀ q ∈ [Location.interior, .boundary], ∃ p, a.locate context p = q := by
  simp only [List.mem_cons, List.not_mem_nil, or_false, forall_eq_or_imp, forall_eq]
  rcases a with a | a | a | a <;> simp only [Area.Valid] at va
  · obtain ⟨i, b, -⟩ := region_located hc va
    obtain ⟨x, hx⟩ := va.interior_nonempty
    obtain ⟨y, hy⟩ := va.exists_mem
    exact ⟨⟨x, (i x).mpr hx⟩, y, (b y).mpr hy⟩
  · obtain ⟨i, b, -⟩ := multiregion_located hc va.1
    obtain ⟨c, hm⟩ := List.exists_mem_of_ne_nil _ va.2
    obtain ⟨x, hx⟩ := (va.1.simple c hm).interior_nonempty
    obtain ⟨y, hy⟩ := (va.1.simple c hm).exists_mem
    exact ⟨⟨x, (i x).mpr ⟨c, hm, hx⟩⟩, y, (b y).mpr ⟨c, hm, hy⟩⟩
  · obtain ⟨i, b, -⟩ := polygon_located hc va
    obtain ⟨⟨x, hx⟩, y, hy⟩ := polygon_nonempty va
    exact ⟨⟨x, (i x).mpr hx⟩, y, (b y).mpr hy⟩
  · obtain ⟨i, b, -⟩ := multipolygon_located hc va.1
    obtain ⟨⟨x, hx⟩, y, hy⟩ := multipolygon_nonempty va.1 va.2
    exact ⟨⟨x, (i x).mpr hx⟩, y, (b y).mpr hy⟩

/-- A relation is answered for every pair of valid areal geometries. -/
theorem area_relate_total {a b : Area K} (va : a.Valid) (vb : b.Valid) (h : a.Suits b) :
    ∃ r, a.relate context b = .ok r := by
  have m : ∀ {x : Py Relation}, (∃ r, x = .ok r) → ∃ r, x.map Relation.complement = .ok r := by
    rintro x ⟨r, rfl⟩
    exact ⟨_, rfl⟩
  have e : ∀ {x : Py Relation} {P : Relation → Prop}, (∃ r, x = .ok r ∧ P r) → ∃ r, x = .ok r := by
    rintro x P ⟨r, h, -⟩
    exact ⟨r, h⟩
  rcases a with a | a | a | a <;> rcases b with b | b | b | b <;>
    simp only [Area.relate, Area.Valid, Area.Suits] at va vb h ⊢
  · exact e (C32_region_in_region hc va vb)
  · exact e (C38_region_in_multiregion hc va vb.1)
  · exact e (C26_region_in_polygon hc va vb)
  · exact e (C41_region_in_multipolygon hc va vb.1)
  · exact m (e (C38_region_in_multiregion hc vb va.1))
  · exact e (C38_multiregion_in_multiregion hc va.1 vb.1 va.2 vb.2)
  · exact e (C26_multiregion_in_polygon hc va.1 vb (.inr h))
  · exact e (C41_multiregion_in_multipolygon hc va.1 vb.1 va.2 vb.2)
  · exact m (e (C26_region_in_polygon hc vb va))
  · exact m (e (C26_multiregion_in_polygon hc vb.1 va (.inr h)))
  · exact e (C25_polygon_in_polygon hc va vb h.1 h.2.1)
  · exact e (C41_polygon_in_multipolygon hc va vb.1)
  · exact m (e (C41_region_in_multipolygon hc vb va.1))
  · exact m (e (C41_multiregion_in_multipolygon hc vb.1 va.1 vb.2 va.2))
  · exact m (e (C41_polygon_in_multipolygon hc vb va.1))
  · exact e (C41_multipolygon_in_multipolygon hc va.1 vb.1 va.2 vb.2)

/-- A relation is answered for every valid linear and areal geometry. -/
theorem line_relate_total {a : Line K} {b : Area K} (va : a.Valid) (vb : b.Valid) (h : a.Suits b) :
    ∃ r, a.relate context b = .ok r := by
  have e : ∀ {x : Py Relation} {P : Relation → Prop}, (∃ r, x = .ok r ∧ P r) → ∃ r, x = .ok r := by
    rintro x P ⟨r, h, -⟩
    exact ⟨r, h⟩
  rcases a with a | a | a <;> rcases b with b | b | b | b <;>
    simp only [Line.relate, Line.Valid, Area.Valid, Line.Suits] at va vb h ⊢
  · exact e (C43_segment_in_region hc va vb h.1 h.2)
  · exact e (C37_segment_in_multiregion hc va vb.1)
  · exact e (C26_segment_beside_border hc va vb h.1 h.2.1 h.2.2.1 h.2.2.2)
  · exact e (C40_segment_in_multipolygon hc va vb.1)
  · exact e (C34_multisegment_in_region hc va.2 va.1 vb)
  · exact e (C37_multisegment_in_multiregion hc va.2 va.1 vb.1)
  · exact e (C39_multisegment_in_polygon hc va.2 va.1 vb)
  · exact e (C40_multisegment_in_multipolygon hc va.2 va.1 vb.1)
  · exact e (C33_contour_in_region hc va vb)
  · exact e (C37_contour_in_multiregion hc va vb.1)
  · exact e (C26_contour_in_polygon hc va vb)
  · exact e (C40_contour_in_multipolygon hc va vb.1)

/-- The set of points of a linear geometry. -/
def linePts : Line K → Set (Point K)
  | .segment s => s.pts
  | .multisegment m => segsPts m.segments
  | .contour c => c.pts

theorem line_located (a : Line K) (p : Point K) : a.locate context p = .boundary ↔ p ∈ linePts a := by
  rcases a with a | a | a
  · exact segment_located hc a p
  · exact multisegment_located hc a p
  · exact contour_located hc a p

theorem line_inhabited {a : Line K} (va : a.Valid) : ∀ q ∈ [Location.boundary], ∃ p, a.locate context p = q := by
  simp only [List.mem_cons, List.not_mem_nil, or_false, forall_eq, line_located hc]
  rcases a with a | a | a <;> simp only [Line.Valid] at va
  · exact ⟨_, a.start_mem⟩
  · obtain ⟨s, hs⟩ := List.exists_mem_of_ne_nil _ va.2
    exact ⟨s.start, s, hs, s.start_mem⟩
  · exact va.exists_mem

omit hc in
theorem line_not_interior (a : Line K) (p : Point K) : a.locate context p ≠ .interior := by
  obtain ⟨h1, h2, h3⟩ := C21_locations_linear context p (match a with | .segment s => s | _ => ⟨p, p⟩)
    (match a with | .multisegment m => m | _ => ⟨[]⟩) (match a with | .contour c => c | _ => ⟨[]⟩)
  rcases a with a | a | a
  · exact h1
  · exact h2
  · exact h3

/-! ### Composition -/

/-- C55: what the relations of an areal geometry to a second one and of the second one to a third one say about
the relation of the first one to the third one. -/
theorem C55_areas {a b c : Area K} (va : a.Valid) (vb : b.Valid) (vc : c.Valid) (hab : a.Suits b) (hbc : b.Suits c)
    (hac : a.Suits c) {r r' : Relation} (h : a.relate context b = .ok r) (h' : b.relate context c = .ok r') :
    ∃ r'' ∈ r.compose r', a.relate context c = .ok r'' := by
  obtain ⟨r'', h''⟩ := area_relate_total hc va vc hac
  refine ⟨r'', ?_, h''⟩
  rw [C54_areas hc va vb hab] at h
  rw [C54_areas hc vb vc hbc] at h'
  rw [C54_areas hc va vc hac] at h''
  exact compose_of_consistent _ _ _ (consistent_of_met h.met h'.met h''.met (area_inhabited hc va)
    (area_inhabited hc vb) (area_inhabited hc vc))

/-- C55, read off the table: a geometry which is part of a geometry within a third one is within the third one. -/
theorem C55_within {a b c : Area K} (va : a.Valid) (vb : b.Valid) (vc : c.Valid) (hab : a.Suits b) (hbc : b.Suits c)
    (hac : a.Suits c) {r : Relation} (hr : r ∈ [Relation.within, .enclosed, .component, .equal])
    (h : a.relate context b = .ok r) (h' : b.relate context c = .ok .within) : a.relate context c = .ok .within := by
  obtain ⟨q, hq, k⟩ := C55_areas hc va vb vc hab hbc hac h h'
  simp only [List.mem_cons, List.not_mem_nil, or_false] at hr
  rcases hr with rfl | rfl | rfl | rfl <;> simp only [Relation.compose, List.mem_singleton] at hq <;> rwa [← hq]

/-- C55, read off the table: a geometry which is part of a geometry disjoint with a third one is disjoint with the
third one. -/
theorem C55_disjoint {a b c : Area K} (va : a.Valid) (vb : b.Valid) (vc : c.Valid) (hab : a.Suits b)
    (hbc : b.Suits c) (hac : a.Suits c) {r : Relation} (hr : r ∈ [Relation.within, .enclosed, .component, .equal])
    (h : a.relate context b = .ok r) (h' : b.relate context c = .ok .disjoint) :
    a.relate context c = .ok .disjoint := by
  obtain ⟨q, hq, k⟩ := C55_areas hc va vb vc hab hbc hac h h'
  simp only [List.mem_cons, List.not_mem_nil, or_false] at hr
  rcases hr with rfl | rfl | rfl | rfl <;> simp only [Relation.compose, List.mem_singleton] at hq <;> rwa [← hq]

/-- C55, read off the table: being part of a geometry is transitive, and so is equality. -/
theorem C55_part {a b c : Area K} (va : a.Valid) (vb : b.Valid) (vc : c.Valid) (hab : a.Suits b) (hbc : b.Suits c)
    (hac : a.Suits c) {r r' : Relation} (hr : r ∈ [Relation.within, .enclosed, .component, .equal])
    (hr' : r' ∈ [Relation.within, .enclosed, .component, .equal])
    (h : a.relate context b = .ok r) (h' : b.relate context c = .ok r') :
    ∃ q ∈ [Relation.within, .enclosed, .component, .equal], a.relate context c = .ok q ∧
      (q = .equal ↔ r = .equal ∧ r' = .equal) := by
  obtain ⟨q, hq, k⟩ := C55_areas hc va vb vc hab hbc hac h h'
  refine ⟨q, ?_, k, ?_⟩ <;>
  · clear h h' k
    simp only [List.mem_cons, List.not_mem_nil, or_false] at hr hr'
    rcases hr with rfl | rfl | rfl | rfl <;> rcases hr' with rfl | rfl | rfl | rfl <;>
      simp only [Relation.compose, List.mem_cons, List.not_mem_nil, or_false] at hq <;> revert hq <;> cases q <;>
      decide

/-- C55: the same for a linear geometry and two areal ones. -/
theorem C55_line {a : Line K} {b c : Area K} (va : a.Valid) (vb : b.Valid) (vc : c.Valid) (hab : a.Suits b)
    (hbc : b.Suits c) (hac : a.Suits c) {r r' : Relation} (h : a.relate context b = .ok r)
    (h' : b.relate context c = .ok r') : ∃ r'' ∈ r.composeLinear r', a.relate context c = .ok r'' := by
  obtain ⟨r'', h''⟩ := line_relate_total hc va vc hac
  refine ⟨r'', ?_, h''⟩
  rw [C54_lines hc va vb hab] at h
  rw [C54_areas hc vb vc hbc] at h'
  rw [C54_lines hc va vc hac] at h''
  exact composeLinear_of_consistent _ _ _ (consistent_of_met (h.met (line_not_interior a)) h'.met
    (h''.met (line_not_interior a)) (line_inhabited hc va) (area_inhabited hc vb) (area_inhabited hc vc))

/-- What the relation of two linear geometries says about their points. -/
def LinesFact (S T : Set (Point K)) : Relation → Prop
  | .disjoint => S ∩ T = ∅
  | .equal => S = T
  | .component => S ⊆ T
  | .composite => T ⊆ S
  | .overlap | .cross | .touch => (S ∩ T).Nonempty
  | _ => False

omit hc [IsStrictOrderedRing K] in
theorem LinesFact.complement {S T : Set (Point K)} {r : Relation} (h : LinesFact T S r.complement) :
    LinesFact S T r := by
  cases r <;> simp only [Relation.complement, LinesFact] at h ⊢
  · rwa [Set.inter_comm]
  · rwa [Set.inter_comm]
  · rwa [Set.inter_comm]
  · rwa [Set.inter_comm]
  · exact h
  · exact h.symm
  · exact h

omit hc in
theorem SharesPiece.meet {S T : Set (Point K)} (h : SharesPiece S T) : (S ∩ T).Nonempty := by
  obtain ⟨u, -, h1, h2⟩ := h
  exact ⟨u.start, h1 u.start_mem, h2 u.start_mem⟩

omit hc in
theorem linearRel_fact {s : Segment K} {M : Set (Point K)} {r : Relation} (h : LinearRel s M r) :
    LinesFact s.pts M r := by
  cases r <;> simp only [LinearRel] at h <;> simp only [LinesFact]
  · exact h
  · exact h.2.2
  · obtain ⟨p, a, b, h1, -, h2, -⟩ := h.2
    exact ⟨p, h1, h2 (Segment.start_mem _)⟩
  · exact SharesPiece.meet h.2.2
  · exact h.subset
  · exact h
  · exact h.subset

omit hc in
theorem setsRel_fact {S T : Set (Point K)} {r : Relation} (h : SetsRel S T r) : LinesFact S T r := by
  cases r <;> simp only [SetsRel] at h <;> simp only [LinesFact]
  · exact h
  · exact h.1
  · exact h.1
  · exact SharesPiece.meet h.2.2
  · exact h.subset
  · exact h
  · exact h.subset

theorem lines_fact {a b : Line K} (va : a.Valid) (vb : b.Valid) {r : Relation}
    (h : a.relateLine context b = .ok r) : LinesFact (linePts a) (linePts b) r := by
  have segmentMultisegment : ∀ {a : Segment K} {b : Multisegment K}, a.Nondegenerate →
      SegmentsValid b.segments → b.segments ≠ [] →
      LinesFact a.pts (segsPts b.segments) (planar.segmentInMultisegment a b context) := by
    rintro a ⟨l⟩ va vb nb
    rcases l with - | ⟨t, - | ⟨t', l⟩⟩
    · exact absurd rfl nb
    · have e : segsPts [t] = t.pts := by ext p; simp [segsPts]
      rw [e]
      rcases (C05_single hc va (vb.1 t (by simp)) _).mp rfl with h | ⟨h, k⟩
      · exact linearRel_fact h.1
      · rw [h]
        exact k.subset
    · exact linearRel_fact ((C05_segment_in_multisegment hc va vb (by simp) _).mp rfl)
  have segmentContour : ∀ {a : Segment K} {b : Contour K} {r : Relation}, a.Nondegenerate → b.Simple →
      planar.segmentInContour a b context = .ok r → LinesFact a.pts b.pts r := by
    intro a b r va vb h
    rw [C08_segment_in_contour hc va vb] at h
    cases r <;> simp only [ContourRel] at h <;> simp only [LinesFact]
    · exact h
    · exact h.2.2
    · obtain ⟨p, x, y, h1, -, h2, -⟩ := h.2
      exact ⟨p, h1, h2 (Segment.start_mem _)⟩
    · exact SharesPiece.meet h.2
    · obtain ⟨e, he, h⟩ := h
      exact h.trans (subset_segsPts he)
  have multisegmentContour : ∀ {a : Multisegment K} {b : Contour K} {r : Relation}, SegmentsValid a.segments →
      a.segments ≠ [] → b.Simple → planar.multisegmentInContour a b context = .ok r →
      LinesFact (segsPts a.segments) b.pts r := by
    intro a b r va na vb h
    obtain ⟨q, hq, k⟩ := C18_multisegment_in_contour hc na vb.ne_nil va vb.valid
    rw [hq] at h
    cases h
    exact setsRel_fact k
  rcases a with a | a | a <;> rcases b with b | b | b <;>
    simp only [Line.relateLine, Line.Valid, linePts] at va vb h ⊢
  · cases h
    have h := (hc.relation_eq_iff va vb (planar.segmentInSegment a b context)).mp rfl
    generalize planar.segmentInSegment a b context = r at h
    cases r <;> simp only [SegmentsRel] at h <;> simp only [LinesFact]
    · exact h
    · obtain ⟨p, h, -⟩ := h
      rw [h]
      exact Set.singleton_nonempty p
    · obtain ⟨p, h, -⟩ := h
      rw [h]
      exact Set.singleton_nonempty p
    · exact h.2.2.nonempty
    · exact h.subset
    · exact h
    · exact h.subset
  · cases h
    exact segmentMultisegment va vb.1 vb.2
  · exact segmentContour va vb h
  · cases h
    refine LinesFact.complement ?_
    rw [show ∀ r : Relation, r.complement.complement = r by intro r; cases r <;> rfl]
    exact segmentMultisegment vb va.1 va.2
  · obtain ⟨q, hq, k⟩ := C18_multisegment_in_multisegment hc va.2 vb.2 va.1 vb.1
    rw [hq] at h
    cases h
    exact setsRel_fact k
  · exact multisegmentContour va.1 va.2 vb h
  · exact LinesFact.complement (segmentContour vb va (map_complement.mp h))
  · exact LinesFact.complement (multisegmentContour vb.1 vb.2 va (map_complement.mp h))
  · obtain ⟨q, hq, k⟩ := C36_contour_in_contour_partial hc va vb
    rw [hq] at h
    cases h
    have key : ∀ r, ContoursRel a b r → LinesFact a.pts b.pts r := by
      intro r k
      cases r <;> simp only [ContoursRel] at k <;> simp only [LinesFact]
      · exact k
      · exact k.2.1
      · rw [Set.nonempty_iff_ne_empty]
        exact fun hd => Contour.not_both_of_disjoint hd k.2.1 k.2.2
      · exact SharesPiece.meet k.2
      · exact k
    rcases k with k | ⟨rfl, k, -⟩
    · exact key _ k
    · exact key .cross k

theorem lines_met {a b : Line K} (va : a.Valid) (vb : b.Valid) {r : Relation}
    (h : a.relateLine context b = .ok r) : (linesDemand r).Met (a.locate context) (b.locate context) := by
  have k := lines_fact hc va vb h
  have ha := line_located hc a
  have hb := line_located hc b
  have na := line_not_interior (context := context) a
  have nb := line_not_interior (context := context) b
  have hp : ∀ p, (a.locate context p = .boundary ∧ p ∈ linePts a ∨ a.locate context p = .exterior ∧ p ∉ linePts a) ∧
      (b.locate context p = .boundary ∧ p ∈ linePts b ∨ b.locate context p = .exterior ∧ p ∉ linePts b) := by
    intro p
    have := ha p
    have := hb p
    have := na p
    have := nb p
    cases e : a.locate context p <;> cases e' : b.locate context p <;> simp_all
  cases r <;> simp only [LinesFact] at k <;> refine ⟨fun p => ?_, ?_⟩ <;>
    simp only [linesDemand, Bool.or_eq_true, Bool.and_eq_true, beq_iff_eq, bne_iff_ne, List.mem_cons,
      List.not_mem_nil, or_false, forall_eq, IsEmpty.forall_iff, implies_true]
  · have := Set.eq_empty_iff_forall_notMem.mp k p
    have := hp p
    grind
  · exact ⟨na p, nb p⟩
  · obtain ⟨x, h1, h2⟩ := k
    exact ⟨x, (ha x).mpr h1, (hb x).mpr h2⟩
  · exact ⟨na p, nb p⟩
  · obtain ⟨x, h1, h2⟩ := k
    exact ⟨x, (ha x).mpr h1, (hb x).mpr h2⟩
  · exact ⟨na p, nb p⟩
  · obtain ⟨x, h1, h2⟩ := k
    exact ⟨x, (ha x).mpr h1, (hb x).mpr h2⟩
  · have := @k p
    have := hp p
    grind
  · have := Set.ext_iff.mp k p
    have := hp p
    grind
  · have := @k p
    have := hp p
    grind

/-- C55: the same for two linear geometries and an areal one. -/
theorem C55_lines {a b : Line K} {c : Area K} (va : a.Valid) (vb : b.Valid) (vc : c.Valid) (hbc : b.Suits c)
    (hac : a.Suits c) {r r' : Relation} (h : a.relateLine context b = .ok r) (h' : b.relate context c = .ok r') :
    ∃ r'' ∈ r.composeLines r', a.relate context c = .ok r'' := by
  obtain ⟨r'', h''⟩ := line_relate_total hc va vc hac
  refine ⟨r'', ?_, h''⟩
  rw [C54_lines hc vb vc hbc] at h'
  rw [C54_lines hc va vc hac] at h''
  exact composeLines_of_consistent _ _ _ (consistent_of_met (lines_met hc va vb h) (h'.met (line_not_interior b))
    (h''.met (line_not_interior a)) (line_inhabited hc va) (line_inhabited hc vb) (by simp))

end

end Orient.Props
