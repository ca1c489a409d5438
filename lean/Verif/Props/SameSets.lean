import Verif.Props.Swapped
import Verif.Props.SegmentBesideRegion

/-! C14-C16 for valid operands, C52: the answers depend only on the sets of points of the operands. -/

set_option linter.unusedSectionVars false

namespace Orient.Props

variable {K : Type} [Field K] [LinearOrder K] [IsStrictOrderedRing K]

/-! ### Locations in valid geometries -/

theorem multipolygon_areal {m : Multipolygon K} (h : m.Valid) :
    Areal (polygonsEdges m.polygons) m.interior m.exterior := by
  obtain ⟨L, -, o⟩ := polygons_oriented reference.context_exact h false
  exact ⟨_, o.outline⟩

theorem multipolygon_split {m : Multipolygon K} (h : m.Valid) : Split m.interior m.pts m.exterior := by
  have := (multipolygon_areal h).split
  rwa [segsPts_polygonsEdges] at this

/-- C14, valid multiregions. -/
theorem C14_valid {context : Context K} (hc : context.Exact) (p : Point K) {m : Multiregion K}
    (h : Multiregion.Valid m) :
    (planar.pointInMultiregion p m context = .interior ↔ p ∈ Multiregion.interior m) ∧
    (planar.pointInMultiregion p m context = .boundary ↔ p ∈ Multiregion.pts m) ∧
    (planar.pointInMultiregion p m context = .exterior ↔ p ∈ Multiregion.exterior m) := by
  obtain ⟨h1, h2⟩ := C14_point_in_multiregion_first hc p m
  have s := h.split
  have hi : planar.pointInMultiregion p m context = .interior → p ∈ Multiregion.interior m := fun e => by
    obtain ⟨pre, r, post, rfl, -, hr⟩ := (h2 .interior (by simp)).mp e
    exact ⟨r, by simp, hr⟩
  have hb : planar.pointInMultiregion p m context = .boundary → p ∈ Multiregion.pts m := fun e => by
    obtain ⟨pre, r, post, rfl, -, hr⟩ := (h2 .boundary (by simp)).mp e
    exact ⟨r, by simp, hr⟩
  have he : planar.pointInMultiregion p m context = .exterior → p ∈ Multiregion.exterior m := h1.mp
  have := s.ib p
  have := s.ie p
  have := s.be p
  cases e : planar.pointInMultiregion p m context <;> simp only [e] at hi hb he <;> simp <;> grind

/-- C15, valid polygons as sets of points. -/
theorem C15_valid {context : Context K} (hc : context.Exact) (p : Point K) {g : Polygon K} (h : g.Valid) :
    (planar.pointInPolygon p g context = .interior ↔ p ∈ g.interior) ∧
    (planar.pointInPolygon p g context = .boundary ↔ p ∈ g.pts) ∧
    (planar.pointInPolygon p g context = .exterior ↔ p ∈ g.exterior) := by
  have hv : ValidHoles g := by
    refine ⟨?_, ?_⟩
    · have sp : ∀ {a b : Contour K}, a.Simple → b.Simple → a.interior ∩ b.interior = ∅ →
          ∀ p, Locates a p .interior → Locates b p .exterior := by
        intro a b ha hb hab p hp
        by_cases hq : p ∈ b.pts
        · obtain ⟨y, y1, y2⟩ := ((hb.areal.near ha.areal hq).1 hp).1
          exact absurd (⟨y2, y1⟩ : y ∈ a.interior ∩ b.interior) (Set.eq_empty_iff_forall_notMem.mp hab y)
        · refine (Contour.cover hq).resolve_left fun hq => ?_
          exact absurd (⟨hp, hq⟩ : p ∈ a.interior ∩ b.interior) (Set.eq_empty_iff_forall_notMem.mp hab p)
      refine h.holes.apart.imp_of_mem fun {a b} ha hb hab p => ⟨?_, ?_⟩
      · exact sp (h.holes.simple a ha) (h.holes.simple b hb) hab.1 p
      · exact sp (h.holes.simple b hb) (h.holes.simple a ha) (Set.inter_comm _ _ ▸ hab.1) p
    · intro d hd p hp he
      rcases h.holes_inside ⟨d, hd, hp⟩ with h' | h'
      · exact Contour.not_both h' he
      · exact he.1 h'
  obtain ⟨h1, h2, -⟩ := C15_point_in_polygon hc p g hv
  have h1 : planar.pointInPolygon p g context = .boundary ↔ p ∈ g.pts := h1
  have h2 : planar.pointInPolygon p g context = .interior ↔ p ∈ g.interior := h2
  refine ⟨h2, h1, ?_⟩
  have s := h.split
  have := s.cover p
  have := s.ie p
  have := s.be p
  cases e : planar.pointInPolygon p g context <;> simp only [e] at h1 h2 <;> simp at h1 h2 ⊢ <;> grind

/-- C16, valid multipolygons as sets of points. -/
theorem C16_valid {context : Context K} (hc : context.Exact) (p : Point K) {m : Multipolygon K}
    (h : m.Valid) :
    (planar.pointInMultipolygon p m context = .interior ↔ p ∈ m.interior) ∧
    (planar.pointInMultipolygon p m context = .boundary ↔ p ∈ m.pts) ∧
    (planar.pointInMultipolygon p m context = .exterior ↔ p ∈ m.exterior) := by
  obtain ⟨h1, h2⟩ := C16_point_in_multipolygon_first (context := context) p m
  have s := multipolygon_split h
  have hi : planar.pointInMultipolygon p m context = .interior → p ∈ m.interior := fun e => by
    obtain ⟨pre, r, post, e', -, hr⟩ := (h2 .interior (by simp)).mp e
    have hm : r ∈ m.polygons := by rw [e']; simp
    exact ⟨r, hm, (C15_valid hc p (h.valid r hm)).1.mp hr⟩
  have hb : planar.pointInMultipolygon p m context = .boundary → p ∈ m.pts := fun e => by
    obtain ⟨pre, r, post, e', -, hr⟩ := (h2 .boundary (by simp)).mp e
    have hm : r ∈ m.polygons := by rw [e']; simp
    exact ⟨r, hm, (C15_valid hc p (h.valid r hm)).2.1.mp hr⟩
  have he : planar.pointInMultipolygon p m context = .exterior → p ∈ m.exterior := fun e r hr =>
    (C15_valid hc p (h.valid r hr)).2.2.mp (h1.mp e r hr)
  have := s.ib p
  have := s.ie p
  have := s.be p
  cases e : planar.pointInMultipolygon p m context <;> simp only [e] at hi hb he <;> simp <;> grind

/-! ### The same sets of points -/

/-- Geometries with the same outer points have the same inner points and the same boundary. -/
theorem areal_same {G T : List (Segment K)} {I E I' E' : Set (Point K)} (g : Areal G I E)
    (t : Areal T I' E') (h : E = E') : I = I' ∧ segsPts G = segsPts T ∧ E = E' := by
  have key : ∀ {G T : List (Segment K)} {I E I' : Set (Point K)}, Areal G I E → Areal T I' E →
      segsPts G ⊆ segsPts T := by
    intro G T I E I' g t z hz
    have s := t.split
    rcases s.cover z with h | h | h
    · obtain ⟨y, y1, y2⟩ := ((g.near t hz).1 h).2
      exact absurd y1 (s.ie y y2)
    · exact h
    · exact absurd h (g.split.be z hz)
  subst h
  have hb := (key g t).antisymm (key t g)
  refine ⟨?_, hb, rfl⟩
  have s := g.split
  have s' := t.split
  rw [← hb] at s'
  ext x
  have := s.cover x
  have := s.ib x
  have := s.ie x
  have := s'.cover x
  have := s'.ib x
  have := s'.ie x
  grind

/-- `point_in_region` finds the same points outside of the regions. -/
def SameRegion (context : Context K) (a b : Region K) : Prop :=
  ∀ p, planar.pointInRegion p a context = .exterior ↔ planar.pointInRegion p b context = .exterior

/-- `point_in_multiregion` finds the same points outside of the multiregions. -/
def SameMultiregion (context : Context K) (a b : Multiregion K) : Prop :=
  ∀ p, planar.pointInMultiregion p a context = .exterior ↔ planar.pointInMultiregion p b context = .exterior

/-- `point_in_polygon` finds the same points outside of the polygons. -/
def SamePolygon (context : Context K) (a b : Polygon K) : Prop :=
  ∀ p, planar.pointInPolygon p a context = .exterior ↔ planar.pointInPolygon p b context = .exterior

/-- `point_in_multipolygon` finds the same points outside of the multipolygons. -/
def SameMultipolygon (context : Context K) (a b : Multipolygon K) : Prop :=
  ∀ p, planar.pointInMultipolygon p a context = .exterior ↔ planar.pointInMultipolygon p b context = .exterior

/-- `point_in_contour` gives the same answers. -/
def SameContour (context : Context K) (a b : Contour K) : Prop :=
  ∀ p, planar.pointInContour p a context = planar.pointInContour p b context

/-- `point_in_multisegment` gives the same answers. -/
def SameMultisegment (context : Context K) (a b : Multisegment K) : Prop :=
  ∀ p, planar.pointInMultisegment p a context = planar.pointInMultisegment p b context

/-- `point_in_segment` gives the same answers. -/
def SameSegment (context : Context K) (a b : Segment K) : Prop :=
  ∀ p, planar.pointInSegment p a context = planar.pointInSegment p b context

theorem eq_of_iff {x y : Py Relation} (hx : ∃ r, x = .ok r) (h : ∀ r, x = .ok r ↔ y = .ok r) : x = y := by
  obtain ⟨r, hr⟩ := hx
  rw [hr, (h r).mp hr]

section

variable {context : Context K} (hc : context.Exact)

include hc

theorem SameSegment.sets {a b : Segment K} (h : SameSegment context a b) : a.pts = b.pts := by
  ext p
  rw [← (C01_point_in_segment hc p a).1, ← (C01_point_in_segment hc p b).1, h p]

theorem SameMultisegment.sets {a b : Multisegment K} (h : SameMultisegment context a b) :
    segsPts a.segments = segsPts b.segments := by
  ext p
  have e := fun m => (C03_point_in_multisegment hc p m).1
  have := e a
  rw [h p, e b] at this
  exact this.symm

theorem contour_boundary (p : Point K) (c : Contour K) :
    planar.pointInContour p c context = .boundary ↔ p ∈ c.pts := by
  have h := all_exterior_iff hc p (context.contourSegments c)
  rw [hc.contourSegments] at h
  have e : c.pts = segsPts c.edgeList := rfl
  unfold planar.pointInContour contour.locatePoint
  rw [hc.contourSegments, e]
  split_ifs with h1
  · simp [h.mp h1]
  · have : p ∈ segsPts c.edgeList := by by_contra hn; exact h1 (h.mpr hn)
    simp [this]

theorem SameContour.sets {a b : Contour K} (h : SameContour context a b) : a.pts = b.pts := by
  ext p
  rw [← contour_boundary hc p a, ← contour_boundary hc p b, h p]

theorem SameRegion.sets {a b : Region K} (h : SameRegion context a b) (ha : Contour.Simple a)
    (hb : Contour.Simple b) :
    Contour.interior a = Contour.interior b ∧ Contour.pts a = Contour.pts b ∧
      Contour.exterior a = Contour.exterior b := by
  refine areal_same ha.areal hb.areal ?_
  ext p
  have := h p
  rwa [C10_point_in_region_unique hc, C10_point_in_region_unique hc] at this

theorem SameMultiregion.sets {a b : Multiregion K} (h : SameMultiregion context a b)
    (ha : Multiregion.Valid a) (hb : Multiregion.Valid b) :
    Multiregion.interior a = Multiregion.interior b ∧ Multiregion.pts a = Multiregion.pts b ∧
      Multiregion.exterior a = Multiregion.exterior b := by
  have := areal_same ha.areal hb.areal (by
    ext p
    have := h p
    rwa [(C14_valid hc p ha).2.2, (C14_valid hc p hb).2.2] at this)
  rwa [segsPts_edgesOf, segsPts_edgesOf] at this

theorem SamePolygon.sets {a b : Polygon K} (h : SamePolygon context a b) (ha : a.Valid) (hb : b.Valid) :
    a.interior = b.interior ∧ a.pts = b.pts ∧ a.exterior = b.exterior := by
  have := areal_same ha.areal hb.areal (by
    ext p
    have := h p
    rwa [(C15_valid hc p ha).2.2, (C15_valid hc p hb).2.2] at this)
  rwa [Polygon.segsPts_edges, Polygon.segsPts_edges] at this

theorem SameMultipolygon.sets {a b : Multipolygon K} (h : SameMultipolygon context a b) (ha : a.Valid)
    (hb : b.Valid) : a.interior = b.interior ∧ a.pts = b.pts ∧ a.exterior = b.exterior := by
  have := areal_same (multipolygon_areal ha) (multipolygon_areal hb) (by
    ext p
    have := h p
    rwa [(C16_valid hc p ha).2.2, (C16_valid hc p hb).2.2] at this)
  rwa [segsPts_polygonsEdges, segsPts_polygonsEdges] at this

/-! ### The same answers -/

/-- C52: `region_in_region`. -/
theorem C52_region_in_region {a a' : Region K} {b b' : Region K}
    (va : Contour.Simple a) (va' : Contour.Simple a')
    (vb : Contour.Simple b) (vb' : Contour.Simple b')
    (ha : SameRegion context a a') (hb : SameRegion context b b') :
    planar.regionInRegion a b context = planar.regionInRegion a' b' context := by
  obtain ⟨e1, e2, e3⟩ := ha.sets hc va va'
  obtain ⟨f1, f2, f3⟩ := hb.sets hc vb vb'
  obtain ⟨q, hq, -⟩ := C32_region_in_region hc va vb
  refine eq_of_iff ⟨q, hq⟩ fun r => ?_
  rw [C32_region_in_region_iff hc va vb, C32_region_in_region_iff hc va' vb', e1, e2, e3, f1, f2, f3]

/-- C52: `contour_in_region`. -/
theorem C52_contour_in_region {a a' : Contour K} {b b' : Region K}
    (va : a.Simple) (va' : a'.Simple)
    (vb : Contour.Simple b) (vb' : Contour.Simple b')
    (ha : SameContour context a a') (hb : SameRegion context b b') :
    planar.contourInRegion a b context = planar.contourInRegion a' b' context := by
  have e2 := ha.sets hc
  obtain ⟨f1, f2, f3⟩ := hb.sets hc vb vb'
  obtain ⟨q, hq, -⟩ := C33_contour_in_region hc va vb
  refine eq_of_iff ⟨q, hq⟩ fun r => ?_
  rw [C33_contour_in_region_iff hc va vb, C33_contour_in_region_iff hc va' vb', e2, f1, f2, f3]

/-- C52: `multisegment_in_region`. -/
theorem C52_multisegment_in_region {a a' : Multisegment K} {b b' : Region K}
    (va : SegmentsValid a.segments) (va' : SegmentsValid a'.segments)
    (vb : Contour.Simple b) (vb' : Contour.Simple b')
    (na : a.segments ≠ []) (na' : a'.segments ≠ [])
    (hn : ¬ Contour.pts b ⊆ segsPts a.segments)
    (ha : SameMultisegment context a a') (hb : SameRegion context b b') :
    planar.multisegmentInRegion a b context = planar.multisegmentInRegion a' b' context := by
  have e2 := ha.sets hc
  obtain ⟨f1, f2, f3⟩ := hb.sets hc vb vb'
  obtain ⟨q, hq, -⟩ := C34_multisegment_in_region hc na va vb
  refine eq_of_iff ⟨q, hq⟩ fun r => ?_
  rw [C34_multisegment_in_region_iff hc na va vb hn, C34_multisegment_in_region_iff hc na' va' vb' (by rw [← f2, ← e2]; exact hn), e2, f1, f2, f3]

/-- C52: `segment_in_multiregion`. -/
theorem C52_segment_in_multiregion {a a' : Segment K} {b b' : Multiregion K}
    (va : a.Nondegenerate) (va' : a'.Nondegenerate)
    (vb : Multiregion.Valid b) (vb' : Multiregion.Valid b')
    (neat : Neat (b.flatMap Contour.edgeList)) (neat' : Neat (b'.flatMap Contour.edgeList))
    (ha : SameSegment context a a') (hb : SameMultiregion context b b') :
    planar.segmentInMultiregion a b context = planar.segmentInMultiregion a' b' context := by
  have e2 := ha.sets hc
  obtain ⟨f1, f2, f3⟩ := hb.sets hc vb vb'
  obtain ⟨q, hq, -⟩ := C37_segment_in_multiregion hc va vb
  refine eq_of_iff ⟨q, hq⟩ fun r => ?_
  rw [C37_segment_in_multiregion_iff hc va vb neat, C37_segment_in_multiregion_iff hc va' vb' neat', e2, f1, f2, f3]

/-- C52: `multisegment_in_multiregion`. -/
theorem C52_multisegment_in_multiregion {a a' : Multisegment K} {b b' : Multiregion K}
    (va : SegmentsValid a.segments) (va' : SegmentsValid a'.segments)
    (vb : Multiregion.Valid b) (vb' : Multiregion.Valid b')
    (na : a.segments ≠ []) (na' : a'.segments ≠ [])
    (neat : Neat (b.flatMap Contour.edgeList)) (neat' : Neat (b'.flatMap Contour.edgeList))
    (hn : ∀ c ∈ b, ¬ Contour.pts c ⊆ segsPts a.segments) (hn' : ∀ c ∈ b', ¬ Contour.pts c ⊆ segsPts a'.segments)
    (ha : SameMultisegment context a a') (hb : SameMultiregion context b b') :
    planar.multisegmentInMultiregion a b context = planar.multisegmentInMultiregion a' b' context := by
  have e2 := ha.sets hc
  obtain ⟨f1, f2, f3⟩ := hb.sets hc vb vb'
  obtain ⟨q, hq, -⟩ := C37_multisegment_in_multiregion hc na va vb
  refine eq_of_iff ⟨q, hq⟩ fun r => ?_
  rw [C37_multisegment_in_multiregion_iff hc na va vb neat hn, C37_multisegment_in_multiregion_iff hc na' va' vb' neat' hn', e2, f1, f2, f3]

/-- C52: `contour_in_multiregion`. -/
theorem C52_contour_in_multiregion {a a' : Contour K} {b b' : Multiregion K}
    (va : a.Simple) (va' : a'.Simple)
    (vb : Multiregion.Valid b) (vb' : Multiregion.Valid b')
    (neat : Neat (b.flatMap Contour.edgeList)) (neat' : Neat (b'.flatMap Contour.edgeList))
    (ha : SameContour context a a') (hb : SameMultiregion context b b') :
    planar.contourInMultiregion a b context = planar.contourInMultiregion a' b' context := by
  have e2 := ha.sets hc
  obtain ⟨f1, f2, f3⟩ := hb.sets hc vb vb'
  obtain ⟨q, hq, -⟩ := C37_contour_in_multiregion hc va vb
  refine eq_of_iff ⟨q, hq⟩ fun r => ?_
  rw [C37_contour_in_multiregion_iff hc va vb neat, C37_contour_in_multiregion_iff hc va' vb' neat', e2, f1, f2, f3]

/-- C52: `region_in_multiregion`. -/
theorem C52_region_in_multiregion {a a' : Region K} {b b' : Multiregion K}
    (va : Contour.Simple a) (va' : Contour.Simple a')
    (vb : Multiregion.Valid b) (vb' : Multiregion.Valid b')
    (nb : b ≠ []) (nb' : b' ≠ [])
    (ha : SameRegion context a a') (hb : SameMultiregion context b b') :
    planar.regionInMultiregion a b context = planar.regionInMultiregion a' b' context := by
  obtain ⟨e1, e2, e3⟩ := ha.sets hc va va'
  obtain ⟨f1, f2, f3⟩ := hb.sets hc vb vb'
  obtain ⟨q, hq, -⟩ := C38_region_in_multiregion hc va vb
  refine eq_of_iff ⟨q, hq⟩ fun r => ?_
  rw [C38_region_in_multiregion_iff hc va vb nb, C38_region_in_multiregion_iff hc va' vb' nb', e1, e2, e3, f1, f2, f3]

/-- C52: `multiregion_in_multiregion`. -/
theorem C52_multiregion_in_multiregion {a a' : Multiregion K} {b b' : Multiregion K}
    (va : Multiregion.Valid a) (va' : Multiregion.Valid a')
    (vb : Multiregion.Valid b) (vb' : Multiregion.Valid b')
    (na : a ≠ []) (na' : a' ≠ [])
    (nb : b ≠ []) (nb' : b' ≠ [])
    (ha : SameMultiregion context a a') (hb : SameMultiregion context b b') :
    planar.multiregionInMultiregion a b context = planar.multiregionInMultiregion a' b' context := by
  obtain ⟨e1, e2, e3⟩ := ha.sets hc va va'
  obtain ⟨f1, f2, f3⟩ := hb.sets hc vb vb'
  obtain ⟨q, hq, -⟩ := C38_multiregion_in_multiregion hc va vb na nb
  refine eq_of_iff ⟨q, hq⟩ fun r => ?_
  rw [C38_multiregion_in_multiregion_iff hc va vb na nb, C38_multiregion_in_multiregion_iff hc va' vb' na' nb', e1, e2, e3, f1, f2, f3]

/-- C52: `multisegment_in_polygon`. -/
theorem C52_multisegment_in_polygon {a a' : Multisegment K} {b b' : Polygon K}
    (va : SegmentsValid a.segments) (va' : SegmentsValid a'.segments)
    (vb : b.Valid) (vb' : b'.Valid)
    (na : a.segments ≠ []) (na' : a'.segments ≠ [])
    (neat : Neat b.edges) (neat' : Neat b'.edges)
    (hn : ¬ b.pts ⊆ segsPts a.segments)
    (ha : SameMultisegment context a a') (hb : SamePolygon context b b') :
    planar.multisegmentInPolygon a b context = planar.multisegmentInPolygon a' b' context := by
  have e2 := ha.sets hc
  obtain ⟨f1, f2, f3⟩ := hb.sets hc vb vb'
  obtain ⟨q, hq, -⟩ := C39_multisegment_in_polygon hc na va vb
  refine eq_of_iff ⟨q, hq⟩ fun r => ?_
  rw [C39_multisegment_in_polygon_iff hc na va vb neat hn, C39_multisegment_in_polygon_iff hc na' va' vb' neat' (by rw [← f2, ← e2]; exact hn), e2, f1, f2, f3]

/-- C52: `contour_in_polygon`. -/
theorem C52_contour_in_polygon {a a' : Contour K} {b b' : Polygon K}
    (va : a.Simple) (va' : a'.Simple)
    (vb : b.Valid) (vb' : b'.Valid)
    (conn : b.Connected)
    (neat : Neat (b.holes.flatMap Contour.edgeList)) (neat' : Neat (b'.holes.flatMap Contour.edgeList))
    (ha : SameContour context a a') (hb : SamePolygon context b b') :
    planar.contourInPolygon a b context = planar.contourInPolygon a' b' context := by
  have e2 := ha.sets hc
  obtain ⟨f1, f2, f3⟩ := hb.sets hc vb vb'
  obtain ⟨q, hq, -⟩ := C26_contour_in_polygon hc va vb
  refine eq_of_iff ⟨q, hq⟩ fun r => ?_
  rw [C26_contour_in_polygon_iff hc va vb conn neat, C26_contour_in_polygon_iff hc va' vb' (by unfold Polygon.Connected at conn ⊢; rwa [← f1, ← f2]) neat', e2, f1, f2, f3]

/-- C52: `region_in_polygon`. -/
theorem C52_region_in_polygon {a a' : Region K} {b b' : Polygon K}
    (va : Contour.Simple a) (va' : Contour.Simple a')
    (vb : b.Valid) (vb' : b'.Valid)
    (conn : b.Connected)
    (ha : SameRegion context a a') (hb : SamePolygon context b b') :
    planar.regionInPolygon a b context = planar.regionInPolygon a' b' context := by
  obtain ⟨e1, e2, e3⟩ := ha.sets hc va va'
  obtain ⟨f1, f2, f3⟩ := hb.sets hc vb vb'
  obtain ⟨q, hq, -⟩ := C26_region_in_polygon hc va vb
  refine eq_of_iff ⟨q, hq⟩ fun r => ?_
  rw [C26_region_in_polygon_iff hc va vb conn, C26_region_in_polygon_iff hc va' vb' (by unfold Polygon.Connected at conn ⊢; rwa [← f1, ← f2]), e1, e2, e3, f1, f2, f3]

/-- C52: `multiregion_in_polygon`. -/
theorem C52_multiregion_in_polygon {a a' : Multiregion K} {b b' : Polygon K}
    (va : Multiregion.Valid a) (va' : Multiregion.Valid a')
    (vb : b.Valid) (vb' : b'.Valid)
    (na : a ≠ []) (na' : a' ≠ [])
    (conn : b.Connected)
    (ha : SameMultiregion context a a') (hb : SamePolygon context b b') :
    planar.multiregionInPolygon a b context = planar.multiregionInPolygon a' b' context := by
  obtain ⟨e1, e2, e3⟩ := ha.sets hc va va'
  obtain ⟨f1, f2, f3⟩ := hb.sets hc vb vb'
  obtain ⟨q, hq, -⟩ := C26_multiregion_in_polygon hc va vb (.inr conn)
  refine eq_of_iff ⟨q, hq⟩ fun r => ?_
  rw [C26_multiregion_in_polygon_iff hc va na vb (.inr conn), C26_multiregion_in_polygon_iff hc va' na' vb' (.inr (by unfold Polygon.Connected at conn ⊢; rwa [← f1, ← f2])), e1, e2, e3, f1, f2, f3]

/-- C52: `segment_in_multipolygon`. -/
theorem C52_segment_in_multipolygon {a a' : Segment K} {b b' : Multipolygon K}
    (va : a.Nondegenerate) (va' : a'.Nondegenerate)
    (vb : b.Valid) (vb' : b'.Valid)
    (neat : Neat (b.polygons.flatMap Polygon.edges)) (neat' : Neat (b'.polygons.flatMap Polygon.edges))
    (ha : SameSegment context a a') (hb : SameMultipolygon context b b') :
    planar.segmentInMultipolygon a b context = planar.segmentInMultipolygon a' b' context := by
  have e2 := ha.sets hc
  obtain ⟨f1, f2, f3⟩ := hb.sets hc vb vb'
  obtain ⟨q, hq, -⟩ := C40_segment_in_multipolygon hc va vb
  refine eq_of_iff ⟨q, hq⟩ fun r => ?_
  rw [C40_segment_in_multipolygon_iff hc va vb neat, C40_segment_in_multipolygon_iff hc va' vb' neat', e2, f1, f2, f3]

/-- C52: `multisegment_in_multipolygon`. -/
theorem C52_multisegment_in_multipolygon {a a' : Multisegment K} {b b' : Multipolygon K}
    (va : SegmentsValid a.segments) (va' : SegmentsValid a'.segments)
    (vb : b.Valid) (vb' : b'.Valid)
    (na : a.segments ≠ []) (na' : a'.segments ≠ [])
    (neat : Neat (b.polygons.flatMap Polygon.edges)) (neat' : Neat (b'.polygons.flatMap Polygon.edges))
    (hn : ∀ g ∈ b.polygons, ¬ Polygon.pts g ⊆ segsPts a.segments) (hn' : ∀ g ∈ b'.polygons, ¬ Polygon.pts g ⊆ segsPts a'.segments)
    (ha : SameMultisegment context a a') (hb : SameMultipolygon context b b') :
    planar.multisegmentInMultipolygon a b context = planar.multisegmentInMultipolygon a' b' context := by
  have e2 := ha.sets hc
  obtain ⟨f1, f2, f3⟩ := hb.sets hc vb vb'
  obtain ⟨q, hq, -⟩ := C40_multisegment_in_multipolygon hc na va vb
  refine eq_of_iff ⟨q, hq⟩ fun r => ?_
  rw [C40_multisegment_in_multipolygon_iff hc na va vb neat hn, C40_multisegment_in_multipolygon_iff hc na' va' vb' neat' hn', e2, f1, f2, f3]

/-- C52: `contour_in_multipolygon`. -/
theorem C52_contour_in_multipolygon {a a' : Contour K} {b b' : Multipolygon K}
    (va : a.Simple) (va' : a'.Simple)
    (vb : b.Valid) (vb' : b'.Valid)
    (neat : Neat (b.polygons.flatMap Polygon.edges)) (neat' : Neat (b'.polygons.flatMap Polygon.edges))
    (ha : SameContour context a a') (hb : SameMultipolygon context b b') :
    planar.contourInMultipolygon a b context = planar.contourInMultipolygon a' b' context := by
  have e2 := ha.sets hc
  obtain ⟨f1, f2, f3⟩ := hb.sets hc vb vb'
  obtain ⟨q, hq, -⟩ := C40_contour_in_multipolygon hc va vb
  refine eq_of_iff ⟨q, hq⟩ fun r => ?_
  rw [C40_contour_in_multipolygon_iff hc va vb neat, C40_contour_in_multipolygon_iff hc va' vb' neat', e2, f1, f2, f3]

/-- C52: `region_in_multipolygon`. -/
theorem C52_region_in_multipolygon {a a' : Region K} {b b' : Multipolygon K}
    (va : Contour.Simple a) (va' : Contour.Simple a')
    (vb : b.Valid) (vb' : b'.Valid)
    (nb : b.polygons ≠ []) (nb' : b'.polygons ≠ [])
    (ha : SameRegion context a a') (hb : SameMultipolygon context b b') :
    planar.regionInMultipolygon a b context = planar.regionInMultipolygon a' b' context := by
  obtain ⟨e1, e2, e3⟩ := ha.sets hc va va'
  obtain ⟨f1, f2, f3⟩ := hb.sets hc vb vb'
  obtain ⟨q, hq, -⟩ := C41_region_in_multipolygon hc va vb
  refine eq_of_iff ⟨q, hq⟩ fun r => ?_
  rw [C41_region_in_multipolygon_iff hc va vb nb, C41_region_in_multipolygon_iff hc va' vb' nb', e1, e2, e3, f1, f2, f3]

/-- C52: `multiregion_in_multipolygon`. -/
theorem C52_multiregion_in_multipolygon {a a' : Multiregion K} {b b' : Multipolygon K}
    (va : Multiregion.Valid a) (va' : Multiregion.Valid a')
    (vb : b.Valid) (vb' : b'.Valid)
    (na : a ≠ []) (na' : a' ≠ [])
    (nb : b.polygons ≠ []) (nb' : b'.polygons ≠ [])
    (neat : Neat (a.flatMap Contour.edgeList) ∨ Neat (b.polygons.flatMap Polygon.edges)) (neat' : Neat (a'.flatMap Contour.edgeList) ∨ Neat (b'.polygons.flatMap Polygon.edges))
    (ha : SameMultiregion context a a') (hb : SameMultipolygon context b b') :
    planar.multiregionInMultipolygon a b context = planar.multiregionInMultipolygon a' b' context := by
  obtain ⟨e1, e2, e3⟩ := ha.sets hc va va'
  obtain ⟨f1, f2, f3⟩ := hb.sets hc vb vb'
  obtain ⟨q, hq, -⟩ := C41_multiregion_in_multipolygon hc va vb na nb
  refine eq_of_iff ⟨q, hq⟩ fun r => ?_
  rw [C41_multiregion_in_multipolygon_iff hc va vb na nb neat, C41_multiregion_in_multipolygon_iff hc va' vb' na' nb' neat', e1, e2, e3, f1, f2, f3]

/-- C52: `polygon_in_multipolygon`. -/
theorem C52_polygon_in_multipolygon {a a' : Polygon K} {b b' : Multipolygon K}
    (va : a.Valid) (va' : a'.Valid)
    (vb : b.Valid) (vb' : b'.Valid)
    (nb : b.polygons ≠ []) (nb' : b'.polygons ≠ [])
    (neat : Neat a.edges ∨ Neat (b.polygons.flatMap Polygon.edges)) (neat' : Neat a'.edges ∨ Neat (b'.polygons.flatMap Polygon.edges))
    (ha : SamePolygon context a a') (hb : SameMultipolygon context b b') :
    planar.polygonInMultipolygon a b context = planar.polygonInMultipolygon a' b' context := by
  obtain ⟨e1, e2, e3⟩ := ha.sets hc va va'
  obtain ⟨f1, f2, f3⟩ := hb.sets hc vb vb'
  obtain ⟨q, hq, -⟩ := C41_polygon_in_multipolygon hc va vb
  refine eq_of_iff ⟨q, hq⟩ fun r => ?_
  rw [C41_polygon_in_multipolygon_iff hc va vb nb neat, C41_polygon_in_multipolygon_iff hc va' vb' nb' neat', e1, e2, e3, f1, f2, f3]

/-- C52: `multipolygon_in_multipolygon`. -/
theorem C52_multipolygon_in_multipolygon {a a' : Multipolygon K} {b b' : Multipolygon K}
    (va : a.Valid) (va' : a'.Valid)
    (vb : b.Valid) (vb' : b'.Valid)
    (na : a.polygons ≠ []) (na' : a'.polygons ≠ [])
    (nb : b.polygons ≠ []) (nb' : b'.polygons ≠ [])
    (neat : Neat (a.polygons.flatMap Polygon.edges) ∨ Neat (b.polygons.flatMap Polygon.edges)) (neat' : Neat (a'.polygons.flatMap Polygon.edges) ∨ Neat (b'.polygons.flatMap Polygon.edges))
    (ha : SameMultipolygon context a a') (hb : SameMultipolygon context b b') :
    planar.multipolygonInMultipolygon a b context = planar.multipolygonInMultipolygon a' b' context := by
  obtain ⟨e1, e2, e3⟩ := ha.sets hc va va'
  obtain ⟨f1, f2, f3⟩ := hb.sets hc vb vb'
  obtain ⟨q, hq, -⟩ := C41_multipolygon_in_multipolygon hc va vb na nb
  refine eq_of_iff ⟨q, hq⟩ fun r => ?_
  rw [C41_multipolygon_in_multipolygon_iff hc va vb na nb neat, C41_multipolygon_in_multipolygon_iff hc va' vb' na' nb' neat', e1, e2, e3, f1, f2, f3]

/-! ### Segments, multisegments and contours -/

omit hc in
/-- A segment is determined up to its direction by its points. -/
theorem segment_same {a b : Segment K} (va : a.Nondegenerate) (vb : b.Nondegenerate) (h : a.pts = b.pts) :
    b = a ∨ b = a.reverse := by
  obtain ⟨h1, h2⟩ := (Segment.pts_eq_iff va vb).mp h
  obtain ⟨p, q⟩ := a
  obtain ⟨u, v⟩ := b
  simp only [Segment.lo, Segment.hi, Segment.reverse, Segment.mk.injEq] at *
  rcases le_total p q with h | h <;> rcases le_total u v with h' | h' <;>
    simp only [min_eq_left, min_eq_right, max_eq_left, max_eq_right, h, h'] at h1 h2 <;> simp [h1, h2]

/-- C52: `segment_in_segment`. -/
theorem C52_segment_in_segment {a a' b b' : Segment K} (va : a.Nondegenerate) (va' : a'.Nondegenerate)
    (vb : b.Nondegenerate) (vb' : b'.Nondegenerate) (ha : SameSegment context a a')
    (hb : SameSegment context b b') :
    planar.segmentInSegment a b context = planar.segmentInSegment a' b' context := by
  have e := ha.sets hc
  have f := hb.sets hc
  have ea : ∀ p, a.IsEndpoint p ↔ a'.IsEndpoint p := fun p => by
    rcases segment_same va va' e with rfl | rfl <;> simp [Segment.isEndpoint_reverse]
  have fb : ∀ p, b.IsEndpoint p ↔ b'.IsEndpoint p := fun p => by
    rcases segment_same vb vb' f with rfl | rfl <;> simp [Segment.isEndpoint_reverse]
  have h := hc.relation_eq_iff va vb (planar.segmentInSegment a b context)
  have h' := hc.relation_eq_iff va' vb' (planar.segmentInSegment a b context)
  refine (h'.mpr ?_).symm
  have := h.mp rfl
  revert this
  cases planar.segmentInSegment a b context <;> simp [SegmentsRel, e, f, ea, fb]

omit hc in
theorem linearRel_same {a a' : Segment K} (va : a.Nondegenerate) (va' : a'.Nondegenerate) (e : a.pts = a'.pts)
    (M : Set (Point K)) (r : Relation) : LinearRel a M r ↔ LinearRel a' M r := by
  have : a.CrossedBy M ↔ a'.CrossedBy M := by
    rcases segment_same va va' e with rfl | rfl <;> simp [Segment.crossedBy_reverse]
  cases r <;> simp [LinearRel, e, this]

/-- C52: `segment_in_multisegment` for multisegments of more than one segment. -/
theorem C52_segment_in_multisegment {a a' : Segment K} {b b' : Multisegment K} (va : a.Nondegenerate)
    (va' : a'.Nondegenerate) (vb : SegmentsValid b.segments) (vb' : SegmentsValid b'.segments)
    (nb : 2 ≤ b.segments.length) (nb' : 2 ≤ b'.segments.length)
    (ha : SameSegment context a a') (hb : SameMultisegment context b b') :
    planar.segmentInMultisegment a b context = planar.segmentInMultisegment a' b' context := by
  have e := ha.sets hc
  have f := hb.sets hc
  refine ((C05_segment_in_multisegment hc va' vb' nb' _).mpr ?_).symm
  rw [← f, ← linearRel_same va va' e]
  exact (C05_segment_in_multisegment hc va vb nb _).mp rfl

/-- C52: `segment_in_contour` for contours without superfluous vertices. -/
theorem C52_segment_in_contour {a a' : Segment K} {b b' : Contour K} (va : a.Nondegenerate)
    (va' : a'.Nondegenerate) (vb : b.Simple) (vb' : b'.Simple) (cb : b.StrictCorners)
    (cb' : b'.StrictCorners) (ha : SameSegment context a a') (hb : SameContour context b b') :
    planar.segmentInContour a b context = planar.segmentInContour a' b' context := by
  have e := ha.sets hc
  have f := hb.sets hc
  have key : ∀ r, planar.segmentInContour a b context = .ok r → planar.segmentInContour a' b' context = .ok r := by
    intro r hr
    have h := (C08_segment_in_contour hc va vb r).mp hr
    have c1 := C08_component hc va vb cb
    have c2 := C08_component hc va' vb' cb'
    rw [C08_segment_in_contour hc va vb] at c1
    rw [C08_segment_in_contour hc va' vb'] at c2 ⊢
    have hx : a.CrossedBy b.pts ↔ a'.CrossedBy b'.pts := by
      rw [f]; rcases segment_same va va' e with rfl | rfl <;> simp [Segment.crossedBy_reverse]
    simp only [ContourRel] at c1 c2
    cases r <;> simp_all [ContourRel]
  obtain ⟨r, hr⟩ : ∃ r, ContourRel a b r := by
    by_cases h1 : ∃ e ∈ b.edgeList, a.pts ⊆ e.pts
    · exact ⟨.component, h1⟩
    by_cases h2 : SharesPiece a.pts b.pts
    · exact ⟨.overlap, h1, h2⟩
    by_cases h3 : a.CrossedBy b.pts
    · exact ⟨.cross, h2, h3⟩
    by_cases h4 : (a.pts ∩ b.pts).Nonempty
    · exact ⟨.touch, h2, h3, h4⟩
    · exact ⟨.disjoint, Set.not_nonempty_iff_eq_empty.mp h4⟩
  have hr := (C08_segment_in_contour hc va vb r).mpr hr
  rw [hr, key r hr]

/-- C52: `segment_in_region` for segments which do not run along the contour (C43). -/
theorem C52_segment_in_region {a a' : Segment K} {b b' : Region K} (va : a.Nondegenerate)
    (va' : a'.Nondegenerate) (vb : Contour.Simple b) (vb' : Contour.Simple b')
    (hno : ¬ SharesPiece a.pts (Contour.pts b))
    (hside : Counterclockwise b ∨ a.start ∉ Contour.pts b ∨ a.finish ∉ Contour.pts b ∨
      (a.start ∉ Contour.vertices b ∧ a.finish ∉ Contour.vertices b))
    (hside' : Counterclockwise b' ∨ a'.start ∉ Contour.pts b' ∨ a'.finish ∉ Contour.pts b' ∨
      (a'.start ∉ Contour.vertices b' ∧ a'.finish ∉ Contour.vertices b'))
    (ha : SameSegment context a a') (hb : SameRegion context b b') :
    planar.segmentInRegion a b context = planar.segmentInRegion a' b' context := by
  have e := ha.sets hc
  obtain ⟨f1, f2, f3⟩ := hb.sets hc vb vb'
  obtain ⟨q, hq, -⟩ := C43_segment_in_region hc va vb hno hside
  refine eq_of_iff ⟨q, hq⟩ fun r => ?_
  rw [C43_segment_in_region_iff hc va vb hno hside,
    C43_segment_in_region_iff hc va' vb' (by rw [← e, ← f2]; exact hno) hside']
  unfold SegmentRegionRel
  rw [e, f1, f2, f3]

/-- C52: `multisegment_in_multisegment`, `TOUCH` and `CROSS` not told apart. -/
theorem C52_multisegment_in_multisegment {a a' b b' : Multisegment K} (na : a.segments ≠ [])
    (nb : b.segments ≠ []) (na' : a'.segments ≠ []) (nb' : b'.segments ≠ [])
    (va : SegmentsValid a.segments) (vb : SegmentsValid b.segments)
    (va' : SegmentsValid a'.segments) (vb' : SegmentsValid b'.segments)
    (ha : SameMultisegment context a a') (hb : SameMultisegment context b b') :
    planar.multisegmentInMultisegment a b context = planar.multisegmentInMultisegment a' b' context ∨
      (planar.multisegmentInMultisegment a b context ∈ [.ok .cross, .ok .touch] ∧
        planar.multisegmentInMultisegment a' b' context ∈ [.ok .cross, .ok .touch]) := by
  have e := ha.sets hc
  have f := hb.sets hc
  obtain ⟨r, hr, hs⟩ := C18_multisegment_in_multisegment hc na nb va vb
  obtain ⟨r', hr', -⟩ := C18_multisegment_in_multisegment hc na' nb' va' vb'
  have h := C18_multisegment_in_multisegment_iff hc na nb va vb
  have h' := C18_multisegment_in_multisegment_iff hc na' nb' va' vb'
  simp only [e, f] at h
  simp only [← h.1, ← h.2.1, ← h.2.2.1, ← h.2.2.2.1, ← h.2.2.2.2.1, ← h.2.2.2.2.2] at h'
  rw [hr, hr'] at h' ⊢
  cases r <;> first | exact hs.elim | simp_all

/-- C52: `multisegment_in_multisegment`, where it tells `TOUCH` from `CROSS` (C51). -/
theorem C52_multisegment_in_multisegment_two {a a' b b' : Multisegment K} (na : a.segments ≠ [])
    (nb : b.segments ≠ []) (na' : a'.segments ≠ []) (nb' : b'.segments ≠ [])
    (va : SegmentsValid a.segments) (vb : SegmentsValid b.segments)
    (va' : SegmentsValid a'.segments) (vb' : SegmentsValid b'.segments)
    (two : ∀ p, CrossesAt (segsPts a.segments) (segsPts b.segments) p →
      AtMostTwoWays (segsPts b.segments) p)
    (ha : SameMultisegment context a a') (hb : SameMultisegment context b b') :
    planar.multisegmentInMultisegment a b context = planar.multisegmentInMultisegment a' b' context := by
  have e := ha.sets hc
  have f := hb.sets hc
  have h := C51_multisegment_in_multisegment hc na nb va vb fun p hp => .inl (two p hp)
  have h' := C51_multisegment_in_multisegment hc na' nb' va' vb' fun p hp => .inl (by
    rw [← e, ← f] at hp; rw [← f]; exact two p hp)
  simp only [e, f] at h
  simp only [← h.1, ← h.2] at h'
  rcases C52_multisegment_in_multisegment hc na nb na' nb' va vb va' vb' ha hb with h1 | ⟨h1, h2⟩
  · exact h1
  · simp only [List.mem_cons, List.not_mem_nil, or_false] at h1 h2
    rcases h1 with h1 | h1 <;> rcases h2 with h2 | h2 <;> simp_all

/-- C52: `multisegment_in_contour`. -/
theorem C52_multisegment_in_contour {a a' : Multisegment K} {b b' : Contour K} (na : a.segments ≠ [])
    (na' : a'.segments ≠ []) (va : SegmentsValid a.segments) (va' : SegmentsValid a'.segments)
    (vb : b.Simple) (vb' : b'.Simple)
    (ha : SameMultisegment context a a') (hb : SameContour context b b') :
    planar.multisegmentInContour a b context = planar.multisegmentInContour a' b' context := by
  have e := ha.sets hc
  have f := hb.sets hc
  obtain ⟨r, hr, h⟩ := C18_multisegment_in_contour hc na vb.ne_nil va vb.valid
  obtain ⟨r', hr', h'⟩ := C18_multisegment_in_contour hc na' vb'.ne_nil va' vb'.valid
  have k := C51_multisegment_in_contour hc na va vb
  have k' := C51_multisegment_in_contour hc na' va' vb'
  rw [e, f] at h
  simp only [e, f] at k
  simp only [← k.1, ← k.2, hr, hr'] at k'
  obtain ⟨u, hu⟩ := List.exists_mem_of_ne_nil _ na'
  obtain ⟨v, hv⟩ := vb'.sharesPiece
  have pa : ∃ u : Segment K, u.Nondegenerate ∧ u.pts ⊆ segsPts a'.segments :=
    ⟨u, va'.1 u hu, fun x hx => ⟨u, hu, hx⟩⟩
  have l := SetsRel.cases_iff pa ⟨v, hv.1, hv.2.1⟩ h
  have l' := SetsRel.cases_iff pa ⟨v, hv.1, hv.2.1⟩ h'
  simp only [← l.1, ← l.2.1, ← l.2.2.1, ← l.2.2.2.1, ← l.2.2.2.2.1, ← l.2.2.2.2.2] at l'
  rw [hr, hr']
  cases r <;> first | exact h.elim | simp_all

/-- C52: `polygon_in_polygon` under the conditions of C49. -/
theorem C52_polygon_in_polygon {a a' b b' : Polygon K} (va : a.Valid) (va' : a'.Valid) (vb : b.Valid)
    (vb' : b'.Valid) (ca : a.Connected) (cb : b.Connected)
    (h1 : ∀ d ∈ b.holes, ¬ RegionRel d a.border .touch) (h2 : ∀ d ∈ a.holes, ¬ RegionRel d b.border .touch)
    (h1' : ∀ d ∈ b'.holes, ¬ RegionRel d a'.border .touch)
    (h2' : ∀ d ∈ a'.holes, ¬ RegionRel d b'.border .touch)
    (ha : SamePolygon context a a') (hb : SamePolygon context b b') :
    planar.polygonInPolygon a b context = planar.polygonInPolygon a' b' context := by
  obtain ⟨e1, e2, e3⟩ := ha.sets hc va va'
  obtain ⟨f1, f2, f3⟩ := hb.sets hc vb vb'
  obtain ⟨q, hq, -⟩ := C25_polygon_in_polygon hc va vb ca cb
  refine eq_of_iff ⟨q, hq⟩ fun r => ?_
  rw [C25_polygon_in_polygon_iff hc va vb ca cb h1 h2,
    C25_polygon_in_polygon_iff hc va' vb' (by unfold Polygon.Connected at ca ⊢; rwa [← e1, ← e2])
      (by unfold Polygon.Connected at cb ⊢; rwa [← f1, ← f2]) h1' h2']
  unfold PolygonRel
  rw [e1, e2, e3, f1, f2, f3]

/-- C52: `contour_in_contour` for contours which do not cross, or have a common point which is a vertex of
none of them. -/
theorem C52_contour_in_contour {a a' b b' : Contour K} (va : a.Simple) (va' : a'.Simple) (vb : b.Simple)
    (vb' : b'.Simple)
    (h : (∃ p ∈ a.pts ∩ b.pts, p ∉ a.vertices ∧ p ∉ b.vertices) ∨ ¬ ContoursRel a b .cross)
    (h' : (∃ p ∈ a'.pts ∩ b'.pts, p ∉ a'.vertices ∧ p ∉ b'.vertices) ∨ ¬ ContoursRel a b .cross)
    (ha : SameContour context a a') (hb : SameContour context b b') :
    planar.contourInContour a b context = planar.contourInContour a' b' context := by
  have e := ha.sets hc
  have f := hb.sets hc
  have i := vb.interior_congr vb' f
  have o : b.exterior = b'.exterior := by
    ext x
    have s := vb.split
    have s' := vb'.split
    have := s.cover x
    have := s.ie x
    have := s.be x
    have := s'.cover x
    have := s'.ie x
    have := s'.be x
    grind
  have k : ∀ r, ContoursRel a b r ↔ ContoursRel a' b' r := fun r => by
    cases r <;> simp [ContoursRel, e, f, i, o]
  obtain ⟨q, hq, -⟩ := C36_contour_in_contour_partial hc va vb
  refine eq_of_iff ⟨q, hq⟩ fun r => ?_
  rw [C36_contour_in_contour_iff hc va vb h, C36_contour_in_contour_iff hc va' vb' (by rwa [← k]), k]

/-- C52: `segment_in_polygon` under the conditions of `C26_segment_beside_border`. -/
theorem C52_segment_in_polygon {a a' : Segment K} {b b' : Polygon K} (va : a.Nondegenerate)
    (va' : a'.Nondegenerate) (vb : b.Valid) (vb' : b'.Valid)
    (hno : ¬ SharesPiece a.pts b.border.pts) (hno' : ¬ SharesPiece a'.pts b'.border.pts)
    (hside : Counterclockwise b.border ∨ a.start ∉ b.border.pts ∨ a.finish ∉ b.border.pts ∨
      (a.start ∉ b.border.vertices ∧ a.finish ∉ b.border.vertices))
    (hside' : Counterclockwise b'.border ∨ a'.start ∉ b'.border.pts ∨ a'.finish ∉ b'.border.pts ∨
      (a'.start ∉ b'.border.vertices ∧ a'.finish ∉ b'.border.vertices))
    (neat : Neat (b.holes.flatMap Contour.edgeList)) (neat' : Neat (b'.holes.flatMap Contour.edgeList))
    (hoff : b.border.pts ∩ Multiregion.pts b.holes = ∅) (hoff' : b'.border.pts ∩ Multiregion.pts b'.holes = ∅)
    (ha : SameSegment context a a') (hb : SamePolygon context b b') :
    planar.segmentInPolygon a b context = planar.segmentInPolygon a' b' context := by
  have e := ha.sets hc
  obtain ⟨f1, f2, f3⟩ := hb.sets hc vb vb'
  obtain ⟨r, hr, h⟩ := C26_segment_beside_border hc va vb hno hside neat hoff
  obtain ⟨r', hr', h'⟩ := C26_segment_beside_border hc va' vb' hno' hside' neat' hoff'
  rw [hr, hr']
  rw [← e, ← f1, ← f2, ← f3] at h'
  obtain ⟨s1, s2, s3⟩ := polygon_apart vb
  rw [LinearCompoundRel.unique ⟨_, a.start_mem⟩ s1 s2 s3 h h']

/-! ### When the answers about points are the same -/

theorem sameSegment_iff {a b : Segment K} : SameSegment context a b ↔ a.pts = b.pts := by
  refine ⟨fun h => h.sets hc, fun h p => ?_⟩
  have h1 := C01_point_in_segment hc p a
  have h2 := C01_point_in_segment hc p b
  rw [h, ← h2.1] at h1
  have := h2.2.2.1
  cases e : planar.pointInSegment p a context <;> cases e' : planar.pointInSegment p b context <;>
    simp_all

theorem sameMultisegment_iff {a b : Multisegment K} :
    SameMultisegment context a b ↔ segsPts a.segments = segsPts b.segments := by
  refine ⟨fun h => h.sets hc, fun h p => ?_⟩
  have h1 := C03_point_in_multisegment hc p a
  have h2 := C03_point_in_multisegment hc p b
  have : (∃ s ∈ a.segments, p ∈ s.pts) ↔ ∃ s ∈ b.segments, p ∈ s.pts := Set.ext_iff.mp h p
  rw [this, ← h2.1] at h1
  cases e : planar.pointInMultisegment p a context <;> cases e' : planar.pointInMultisegment p b context <;>
    simp_all <;> grind

theorem sameContour_iff {a b : Contour K} : SameContour context a b ↔ a.pts = b.pts := by
  refine ⟨fun h => h.sets hc, fun h p => ?_⟩
  have h1 := contour_boundary hc p a
  have h2 := contour_boundary hc p b
  have k1 := (C07_point_in_contour hc p a).2
  have k2 := (C07_point_in_contour hc p b).2
  rw [h, ← h2] at h1
  cases e : planar.pointInContour p a context <;> cases e' : planar.pointInContour p b context <;>
    simp_all

theorem sameRegion_iff {a b : Region K} :
    SameRegion context a b ↔ Contour.exterior a = Contour.exterior b := by
  simp only [SameRegion, C10_point_in_region_unique hc, Set.ext_iff]
  rfl

theorem sameMultiregion_iff {a b : Multiregion K} (ha : Multiregion.Valid a) (hb : Multiregion.Valid b) :
    SameMultiregion context a b ↔ Multiregion.exterior a = Multiregion.exterior b := by
  simp only [SameMultiregion, fun p => (C14_valid hc p ha).2.2, fun p => (C14_valid hc p hb).2.2, Set.ext_iff]

theorem samePolygon_iff {a b : Polygon K} (ha : a.Valid) (hb : b.Valid) :
    SamePolygon context a b ↔ a.exterior = b.exterior := by
  simp only [SamePolygon, fun p => (C15_valid hc p ha).2.2, fun p => (C15_valid hc p hb).2.2, Set.ext_iff]

theorem sameMultipolygon_iff {a b : Multipolygon K} (ha : a.Valid) (hb : b.Valid) :
    SameMultipolygon context a b ↔ a.exterior = b.exterior := by
  simp only [SameMultipolygon, fun p => (C16_valid hc p ha).2.2, fun p => (C16_valid hc p hb).2.2,
    Set.ext_iff]

end

end Orient.Props
