import Verif.Props.Connected
import Verif.Props.PolygonInPolygon
import Verif.Props.MultipolygonRelations
import Verif.Props.SegmentInRegion

/-! C25, C26: cases which meet the hypotheses, and cases which show that the exceptions are real. -/

set_option linter.unusedSectionVars false

namespace Orient.Props

variable {K : Type} [Field K] [LinearOrder K] [IsStrictOrderedRing K]

/-- C25: if no hole of one polygon touches the border of the other one from outside then the answer of
`polygon_in_polygon` is determined by the relation of the interiors and the boundaries. -/
theorem C25_polygon_in_polygon_iff {context : Context K} (hc : context.Exact) {t g : Polygon K}
    (ht : t.Valid) (hg : g.Valid) (htc : t.Connected) (hgc : g.Connected)
    (h1 : ∀ d ∈ g.holes, ¬ RegionRel d t.border .touch) (h2 : ∀ d ∈ t.holes, ¬ RegionRel d g.border .touch)
    (r : Relation) : planar.polygonInPolygon t g context = .ok r ↔ PolygonRel t g r := by
  obtain ⟨r', hr, h | ⟨-, ⟨⟨d, k1, k2⟩, -⟩, -⟩ | ⟨-, ⟨⟨d, k1, k2⟩, -⟩, -⟩⟩ :=
    C25_polygon_in_polygon hc ht hg htc hgc
  · obtain ⟨a1, a2, a3⟩ := polygon_apart ht
    obtain ⟨b1, b2, b3⟩ := polygon_apart hg
    obtain ⟨j1, j2⟩ := polygon_nonempty ht
    obtain ⟨k1, k2⟩ := polygon_nonempty hg
    rw [hr]
    constructor
    · intro e; cases e; exact h
    · intro h'
      rw [CompoundRel.unique j1 j2 k1 k2 a1 a2 b1 b2 h h']
  · exact absurd k2 (h1 d k1)
  · exact absurd k2 (h2 d k1)

theorem not_touch {a b : Contour K} (ha : a.Simple) (hb : b.Simple)
    (h : planar.regionInRegion a b reference.context ≠ .ok .touch) : ¬ RegionRel a b .touch :=
  fun k => h ((C32_region_in_region_iff reference.context_exact ha hb _).mpr k)

/-! ### examples -/

/-- A part of `exampleHoles` with a hole around its separate hole. -/
def exampleInner : Polygon ℚ :=
  ⟨⟨[⟨5, 5⟩, ⟨9, 5⟩, ⟨9, 9⟩, ⟨5, 9⟩]⟩, [⟨[⟨6, 6⟩, ⟨8, 6⟩, ⟨8, 8⟩, ⟨6, 8⟩]⟩]⟩

theorem exampleInner_valid : exampleInner.Valid := Polygon.valid_of_check (by decide +kernel)

theorem exampleInner_connected : exampleInner.Connected := exampleInner_valid.connected
  ⟨_, .refl _, reference.isLoose_spec (m := [(exampleInner.border, ⟨0, 0⟩),
    (⟨[⟨6, 6⟩, ⟨8, 6⟩, ⟨8, 8⟩, ⟨6, 8⟩]⟩, ⟨0, 0⟩)]) (by decide +kernel)⟩

/-- C25 applies to polygons with touching and common holes. -/
theorem C25_example : PolygonRel exampleInner exampleHoles .enclosed ∧
    PolygonRel exampleHoles exampleInner .encloses ∧ PolygonRel exampleHoles exampleHoles .equal := by
  have k1 : ∀ d ∈ exampleHoles.holes, ¬ RegionRel d exampleInner.border .touch := fun d hd =>
    not_touch (exampleHoles_valid.holes.simple d hd) exampleInner_valid.border (by
      revert d; decide +kernel)
  have k2 : ∀ d ∈ exampleInner.holes, ¬ RegionRel d exampleHoles.border .touch := fun d hd =>
    not_touch (exampleInner_valid.holes.simple d hd) exampleHoles_valid.border (by
      revert d; decide +kernel)
  have k3 : ∀ d ∈ exampleHoles.holes, ¬ RegionRel d exampleHoles.border .touch := fun d hd =>
    not_touch (exampleHoles_valid.holes.simple d hd) exampleHoles_valid.border (by
      revert d; decide +kernel)
  refine ⟨?_, ?_, ?_⟩
  · exact (C25_polygon_in_polygon_iff reference.context_exact exampleInner_valid exampleHoles_valid
      exampleInner_connected exampleHoles_connected k1 k2 _).mp (by decide +kernel)
  · exact (C25_polygon_in_polygon_iff reference.context_exact exampleHoles_valid exampleInner_valid
      exampleHoles_connected exampleInner_connected k2 k1 _).mp (by decide +kernel)
  · exact (C25_polygon_in_polygon_iff reference.context_exact exampleHoles_valid exampleHoles_valid
      exampleHoles_connected exampleHoles_connected k3 k3 _).mp (by decide +kernel)

/-- C26 applies to regions, contours, multiregions and segments. -/
theorem C26_example :
    CompoundRel exampleInner.border.interior exampleInner.border.pts exampleInner.border.exterior
      exampleHoles.interior exampleHoles.pts exampleHoles.exterior .overlap ∧
    LinearCompoundRel (⟨[⟨5, 5⟩, ⟨7, 5⟩, ⟨6, 6⟩]⟩ : Contour ℚ).pts exampleInner.interior exampleInner.pts
      exampleInner.exterior .enclosed ∧
    CompoundRel (Multiregion.interior exampleHoles.holes) (Multiregion.pts exampleHoles.holes)
      (Multiregion.exterior exampleHoles.holes) exampleInner.interior exampleInner.pts
      exampleInner.exterior .touch ∧
    LinearCompoundRel (⟨⟨6, 6⟩, ⟨5, 4⟩⟩ : Segment ℚ).pts exampleInner.interior exampleInner.pts
      exampleInner.exterior .cross := by
  refine ⟨?_, ?_, ?_, ?_⟩
  · exact (C26_region_in_polygon_iff reference.context_exact exampleInner_valid.border exampleHoles_valid
      exampleHoles_connected _).mp (by decide +kernel)
  · exact (C26_contour_in_polygon_iff reference.context_exact (Contour.simple_of_check (by decide +kernel))
      exampleInner_valid exampleInner_connected (neat_of_check (by decide +kernel)) _).mp (by decide +kernel)
  · exact (C26_multiregion_in_polygon_iff reference.context_exact exampleHoles_valid.holes (by decide +kernel)
      exampleInner_valid (.inr exampleInner_connected) _).mp (by decide +kernel)
  · have hr : planar.segmentInPolygon ⟨⟨6, 6⟩, ⟨5, 4⟩⟩ exampleInner (reference.context : Context ℚ)
      = .ok .cross := by decide +kernel
    obtain ⟨r, hr', h⟩ := C26_segment_in_polygon reference.context_exact (s := ⟨⟨6, 6⟩, ⟨5, 4⟩⟩)
      (g := exampleInner) (r := .cross) (by unfold Segment.Nondegenerate; decide +kernel) exampleInner_valid
      (by decide +kernel) ⟨⟨_, Segment.start_mem _, mem_interior (by decide +kernel)⟩,
        ⟨_, Segment.finish_mem _, mem_exterior (by decide +kernel)⟩⟩
    rw [hr] at hr'
    cases hr'
    rcases h with h | ⟨-, h | h, -⟩ | ⟨h, -⟩
    · exact h
    · refine absurd ?_ h
      refine Set.eq_empty_iff_forall_notMem.mpr fun z hz => ?_
      have m1 : (reference.meetOnlyAt (⟨0, 0⟩ : Point ℚ) exampleInner.border.edgeList
        (edgesOf exampleInner.holes)) = true := by decide +kernel
      have := reference.meetOnlyAt_spec' m1 (by rwa [segsPts_edgesOf])
      have z1 := hz.1
      rw [this] at z1
      have := (C10_point_in_region_unique reference.context_exact _ _ .boundary).mpr z1
      revert this
      decide +kernel
    · exact absurd (neat_of_check (by decide +kernel)) h
    · cases h

/-! ### counterexamples -/

/-- C25: the exception is real.  A hole of the second polygon touches the border of the first one from
outside, another one is inside of the hole of the first one; `WITHIN` is answered for `ENCLOSED`. -/
theorem C25_counterexample :
    let t : Polygon ℚ := ⟨⟨[⟨2, 2⟩, ⟨8, 2⟩, ⟨8, 8⟩, ⟨2, 8⟩]⟩, [⟨[⟨3, 3⟩, ⟨6, 3⟩, ⟨6, 6⟩, ⟨3, 6⟩]⟩]⟩
    let g : Polygon ℚ := ⟨⟨[⟨0, 0⟩, ⟨10, 0⟩, ⟨10, 10⟩, ⟨0, 10⟩]⟩,
      [⟨[⟨4, 4⟩, ⟨5, 4⟩, ⟨5, 5⟩, ⟨4, 5⟩]⟩, ⟨[⟨8, 4⟩, ⟨9, 4⟩, ⟨9, 5⟩, ⟨8, 5⟩]⟩]⟩
    t.Valid ∧ g.Valid ∧ t.Connected ∧ g.Connected ∧
      planar.polygonInPolygon t g (reference.context : Context ℚ) = .ok .within ∧
      PolygonRel t g .enclosed := by
  intro t g
  have ht : t.Valid := Polygon.valid_of_check (by decide +kernel)
  have hg : g.Valid := Polygon.valid_of_check (by decide +kernel)
  have htc : t.Connected := ht.connected ⟨_, .refl _, reference.isLoose_spec (m := [(t.border, ⟨0, 0⟩),
    (⟨[⟨3, 3⟩, ⟨6, 3⟩, ⟨6, 6⟩, ⟨3, 6⟩]⟩, ⟨0, 0⟩)]) (by decide +kernel)⟩
  have hgc : g.Connected := hg.connected ⟨_, .refl _, reference.isLoose_spec (m := [(g.border, ⟨0, 0⟩),
    (⟨[⟨4, 4⟩, ⟨5, 4⟩, ⟨5, 5⟩, ⟨4, 5⟩]⟩, ⟨0, 0⟩), (⟨[⟨8, 4⟩, ⟨9, 4⟩, ⟨9, 5⟩, ⟨8, 5⟩]⟩, ⟨0, 0⟩)])
    (by decide +kernel)⟩
  have hr : planar.polygonInPolygon t g (reference.context : Context ℚ) = .ok .within := by decide +kernel
  refine ⟨ht, hg, htc, hgc, hr, ?_⟩
  obtain ⟨r, hr', h⟩ := C25_polygon_in_polygon reference.context_exact ht hg htc hgc
  rw [hr] at hr'
  cases hr'
  rcases h with h | ⟨-, -, h⟩ | ⟨h, -⟩
  · exfalso
    -- a common point of the boundaries
    have p1 : (⟨8, 4⟩ : Point ℚ) ∈ t.pts := .inl ⟨⟨⟨8, 2⟩, ⟨8, 8⟩⟩, by decide +kernel,
      (C01_point_in_segment reference.context_exact _ _).1.mp (by decide +kernel)⟩
    have p2 : (⟨8, 4⟩ : Point ℚ) ∈ g.pts := .inr ⟨⟨[⟨8, 4⟩, ⟨9, 4⟩, ⟨9, 5⟩, ⟨8, 5⟩]⟩, by decide +kernel,
      Contour.vertex_mem_pts (by decide +kernel)⟩
    exact hg.split.ib _ (h (.inr p1)) p2
  · exact h
  · cases h

/-- A square with a hole that touches all its sides. -/
def exampleDivided : Polygon ℚ :=
  ⟨⟨[⟨0, 0⟩, ⟨4, 0⟩, ⟨4, 4⟩, ⟨0, 4⟩]⟩, [⟨[⟨2, 0⟩, ⟨4, 2⟩, ⟨2, 4⟩, ⟨0, 2⟩]⟩]⟩

theorem exampleDivided_valid : exampleDivided.Valid := Polygon.valid_of_check (by decide +kernel)

def exampleCorner : Contour ℚ := ⟨[⟨0, 0⟩, ⟨2, 0⟩, ⟨0, 2⟩]⟩

theorem exampleCorner_simple : exampleCorner.Simple := Contour.simple_of_check (by decide +kernel)

theorem exampleCorner_boundary : exampleCorner.pts ⊆ exampleDivided.pts := by
  rw [← Polygon.segsPts_edges]
  exact covered_of_check (by decide +kernel)

/-- C26: the exception for regions is real, `ENCLOSED` is answered for a region which is a connected part of
the polygon, its boundary is a part of the boundary of the polygon. -/
theorem C26_counterexample_region :
    exampleDivided.Valid ∧ exampleCorner.Simple ∧
      planar.regionInPolygon exampleCorner exampleDivided (reference.context : Context ℚ) = .ok .enclosed ∧
      CompoundRel exampleCorner.interior exampleCorner.pts exampleCorner.exterior exampleDivided.interior
        exampleDivided.pts exampleDivided.exterior .component := by
  have hr : planar.regionInPolygon exampleCorner exampleDivided (reference.context : Context ℚ)
    = .ok .enclosed := by decide +kernel
  refine ⟨exampleDivided_valid, exampleCorner_simple, hr, ?_⟩
  obtain ⟨r, hr', h⟩ := C26_region_in_polygon reference.context_exact exampleCorner_simple exampleDivided_valid
  rw [hr] at hr'
  cases hr'
  rcases h with h | ⟨-, -, h⟩
  · exfalso
    obtain ⟨-, -, ⟨x, x1, x2⟩, -⟩ := h
    exact exampleDivided_valid.split.ib x x2 (exampleCorner_boundary x1)
  · exact h

/-- C26: the exception for contours is real, too. -/
theorem C26_counterexample_contour :
    exampleDivided.Valid ∧ exampleCorner.Simple ∧
      planar.contourInPolygon exampleCorner exampleDivided (reference.context : Context ℚ) = .ok .enclosed ∧
      LinearCompoundRel exampleCorner.pts exampleDivided.interior
        exampleDivided.pts exampleDivided.exterior .component :=
  ⟨exampleDivided_valid, exampleCorner_simple, by decide +kernel, exampleCorner_boundary⟩

/-- C26: the exception for segments is real, `CROSS` is answered for a segment from a hole to the outside
which has no points inside of the polygon. -/
theorem C26_counterexample_segment :
    exampleTouchedBorder.Valid ∧
      planar.segmentInPolygon ⟨⟨2, 3⟩, ⟨2, 5⟩⟩ exampleTouchedBorder (reference.context : Context ℚ)
        = .ok .cross ∧
      LinearCompoundRel (⟨⟨2, 3⟩, ⟨2, 5⟩⟩ : Segment ℚ).pts exampleTouchedBorder.interior
        exampleTouchedBorder.pts exampleTouchedBorder.exterior .touch := by
  refine ⟨C39_counterexample.1, by decide +kernel, ?_⟩
  have h := C39_counterexample.2.2
  rwa [show segsPts [(⟨⟨2, 3⟩, ⟨2, 5⟩⟩ : Segment ℚ)] = (⟨⟨2, 3⟩, ⟨2, 5⟩⟩ : Segment ℚ).pts by
    ext z; simp [segsPts]] at h

end Orient.Props
