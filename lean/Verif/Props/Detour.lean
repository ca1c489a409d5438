import Verif.Props.ExactSegmentsAll
import Verif.Props.ExactAnswers
import Verif.Props.Wrapping
import Verif.Props.Joins
import Verif.Props.ContourRelations
import Verif.Props.DisconnectedExamples

/-! C86: a single segment is related rightly to a region by the functions for multisegments, multiregions and
multipolygons.

So there is a way around the wrong answers of `segment_in_region`, and a way to recognise them. Giving a polygon as
a multipolygon avoids wrong answers of the functions for polygons in the same way. -/

set_option linter.unusedSectionVars false

namespace Orient.Props

variable {K : Type} [Field K] [LinearOrder K] [IsStrictOrderedRing K]

theorem single_valid {s : Segment K} (hs : s.Nondegenerate) : SegmentsValid [s] :=
  ⟨by simpa using hs, List.pairwise_singleton _ _⟩

theorem single_multipolygon {g : Polygon K} (hg : g.Valid) : (⟨[g]⟩ : Multipolygon K).Valid ∧
    (⟨[g]⟩ : Multipolygon K).interior = g.interior ∧ (⟨[g]⟩ : Multipolygon K).pts = g.pts ∧
    (⟨[g]⟩ : Multipolygon K).exterior = g.exterior ∧
    (⟨[g]⟩ : Multipolygon K).polygons.flatMap Polygon.edges = g.edges := by
  refine ⟨⟨by simpa using hg, by simp⟩, ?_, ?_, ?_, by simp⟩ <;> ext p <;>
    simp [Multipolygon.interior, Multipolygon.pts, Multipolygon.exterior]

section

variable {context : Context K} (hc : context.Exact) {s : Segment K} (hs : s.Nondegenerate)

include hc hs

/-- C86: `multisegment_in_region` is right about a single segment, without exceptions. -/
theorem C86_multisegment_in_region {c : Contour K} (h : c.Simple) (r : Relation) :
    planar.multisegmentInRegion ⟨[s]⟩ c context = .ok r ↔ SegmentRegionRel s c r := by
  rw [C34_multisegment_in_region_iff hc (a := ⟨[s]⟩) (by simp) (single_valid hs) h
    (by rw [segsPts_singleton]; exact h.not_subset_segment hs), segsPts_singleton]
  rfl

/-- C86: so are the functions for multisegments with the other forms of a region. -/
theorem C86_multisegment {c : Contour K} (h : c.Simple) (r : Relation) : ∀ y ∈ wraps c,
    (Line.multisegment ⟨[s]⟩).relate context y = .ok r ↔ SegmentRegionRel s c r := by
  intro y hy
  rw [C56_multisegment hc (a := ⟨[s]⟩) (single_valid hs) (by simp) h
    (by rw [segsPts_singleton]; exact h.not_subset_segment hs) y hy]
  exact C86_multisegment_in_region hc hs h r

/-- C86: so is `segment_in_multiregion` with a single region. -/
theorem C86_segment_in_multiregion {c : Contour K} (h : c.Simple) (r : Relation) :
    planar.segmentInMultiregion s [c] context = .ok r ↔ SegmentRegionRel s c r := by
  have v : Multiregion.Valid [c] := ⟨by simpa using h, by simp⟩
  rw [C37_segment_in_multiregion_iff hc hs v (by simpa using h.neat),
    show Multiregion.interior [c] = c.interior by ext p; simp [Multiregion.interior],
    show Multiregion.pts [c] = c.pts by ext p; simp [Multiregion.pts],
    show Multiregion.exterior [c] = c.exterior by ext p; simp [Multiregion.exterior]]
  rfl

/-- C86: so is `segment_in_multipolygon` with a single polygon without holes. -/
theorem C86_segment_in_multipolygon {c : Contour K} (h : c.Simple) (r : Relation) :
    planar.segmentInMultipolygon s ⟨[⟨c, []⟩]⟩ context = .ok r ↔ SegmentRegionRel s c r := by
  have g : (⟨c, []⟩ : Polygon K).Valid := ⟨h, ⟨by simp, by simp⟩, by simp, by simp⟩
  have v : (⟨[⟨c, []⟩]⟩ : Multipolygon K).Valid := ⟨by simpa using g, by simp⟩
  rw [C40_segment_in_multipolygon_iff hc hs v (by simpa [Polygon.edges] using h.neat),
    show (⟨[⟨c, []⟩]⟩ : Multipolygon K).interior = c.interior by
      ext p; simp [Multipolygon.interior, Polygon.interior, Multiregion.exterior],
    show (⟨[⟨c, []⟩]⟩ : Multipolygon K).pts = c.pts by
      ext p; simp [Multipolygon.pts, Polygon.pts, Multiregion.pts],
    show (⟨[⟨c, []⟩]⟩ : Multipolygon K).exterior = c.exterior by
      ext p; simp [Multipolygon.exterior, Polygon.exterior, Multiregion.interior]]
  rfl

/-- C86: the answer of `segment_in_region` is right exactly if `multisegment_in_region` gives the same. -/
theorem C86_recognise {c : Contour K} (h : c.Simple) :
    ∃ r, planar.segmentInRegion s c context = .ok r ∧
      (SegmentRegionRel s c r ↔
        planar.segmentInRegion s c context = planar.multisegmentInRegion ⟨[s]⟩ c context) := by
  obtain ⟨r, hr, -⟩ := C83_segment_in_region hc hs h
  refine ⟨r, hr, ?_⟩
  rw [← C86_multisegment_in_region hc hs h, hr, eq_comm]

/-- C86: with a polygon it does not matter whether the segment is given as a multisegment or the polygon as a
multipolygon: `CROSS` is answered if edges cross the segment, and otherwise the relation. -/
theorem C86_polygon {g : Polygon K} (hg : g.Valid) :
    ∃ r, planar.multisegmentInPolygon ⟨[s]⟩ g context = .ok r ∧
      planar.segmentInMultipolygon s ⟨[g]⟩ context = .ok r ∧
      planar.multisegmentInMultipolygon ⟨[s]⟩ ⟨[g]⟩ context = .ok r ∧
      ∀ q, CrossAnswer (EdgesCross g.edges [s]) s.pts g.interior g.pts g.exterior q ↔ q = r := by
  have v : (⟨[g]⟩ : Multipolygon K).Valid := ⟨by simpa using hg, by simp⟩
  have hn : ¬ g.pts ⊆ s.pts := fun k => hg.border.not_subset_segment hs (Set.subset_union_left.trans k)
  have e1 : (⟨[g]⟩ : Multipolygon K).interior = g.interior := by ext p; simp [Multipolygon.interior]
  have e2 : (⟨[g]⟩ : Multipolygon K).pts = g.pts := by ext p; simp [Multipolygon.pts]
  have e3 : (⟨[g]⟩ : Multipolygon K).exterior = g.exterior := by ext p; simp [Multipolygon.exterior]
  have e4 : (⟨[g]⟩ : Multipolygon K).polygons.flatMap Polygon.edges = g.edges := by simp
  obtain ⟨r, hr, h⟩ := C73_segment_in_multipolygon hc hs v
  obtain ⟨r1, hr1, h1⟩ := C73_multisegment_in_polygon hc (a := ⟨[s]⟩) (by simp) (single_valid hs) hg
  obtain ⟨r2, hr2, h2⟩ := C73_multisegment_in_multipolygon hc (a := ⟨[s]⟩) (by simp) (single_valid hs) v
  simp only [e1, e2, e3, e4, segsPts_singleton] at h h1 h2
  have h1' := (h r1).mp (LinearAnswer.cross ((h1 r1).mpr rfl) fun k => hn k.1)
  have h2' := (h r2).mp (LinearAnswer.cross ((h2 r2).mpr rfl) (by
    rintro ⟨hY, x, x1, x2⟩
    exact hn (hY g (by simp) (not_boxesApart x1 (.inl x2)))))
  subst h1' h2'
  exact ⟨_, hr1, hr, hr2, h⟩

/-- C86: the answer is right if the edges of the polygon meet only in common endpoints. -/
theorem C86_polygon_right {g : Polygon K} (hg : g.Valid) (neat : Neat g.edges) (r : Relation) :
    planar.multisegmentInPolygon ⟨[s]⟩ g context = .ok r ↔
      LinearCompoundRel s.pts g.interior g.pts g.exterior r := by
  have hn : ¬ g.pts ⊆ s.pts := fun k => hg.border.not_subset_segment hs (Set.subset_union_left.trans k)
  rw [C39_multisegment_in_polygon_iff hc (a := ⟨[s]⟩) (by simp) (single_valid hs) hg neat
    (by rw [segsPts_singleton]; exact hn), segsPts_singleton]

omit hs

/-- C86: a region is related to a polygon rightly, without exceptions, if the polygon is given as a multipolygon. -/
theorem C86_region_in_polygon {a : Region K} (ha : Contour.Simple a) {g : Polygon K} (hg : g.Valid) (r : Relation) :
    planar.regionInMultipolygon a ⟨[g]⟩ context = .ok r ↔
      CompoundRel (Contour.interior a) (Contour.pts a) (Contour.exterior a) g.interior g.pts g.exterior r := by
  obtain ⟨v, e1, e2, e3, -⟩ := single_multipolygon hg
  rw [C41_region_in_multipolygon_iff hc ha v (by simp), e1, e2, e3]

/-- C86: the relation of any segments together, also of overlapping ones and of those which contain the boundary of the
region, is determined by the answers about each of them. -/
theorem C86_pieces {l : List (Segment K)} (hl : ∀ s ∈ l, s.Nondegenerate) (nl : l ≠ []) {c : Contour K} (h : c.Simple)
    (r : Relation) :
    LinearCompoundRel (segsPts l) c.interior c.pts c.exterior r ↔
      JoinOf (fun q => ∃ s ∈ l, planar.multisegmentInRegion ⟨[s]⟩ c context = .ok q) r := by
  have e : ∀ s ∈ l, ∀ q, planar.multisegmentInRegion ⟨[s]⟩ c context = .ok q ↔
      LinearLocations (planar.pointInSegment · s context) (planar.pointInRegion · c context) q := fun s hs q => by
    rw [C86_multisegment_in_region hc (hl s hs) h]
    exact (linearLocations_iff (segment_located hc s) (region_located hc h) q).symm
  have e' : (fun q => ∃ s ∈ l, planar.multisegmentInRegion ⟨[s]⟩ c context = .ok q) =
      fun q => ∃ s, s ∈ l ∧ LinearLocations (planar.pointInSegment · s context) (planar.pointInRegion · c context) q := by
    ext q
    exact exists_congr fun s => and_congr_right fun hs => e s hs q
  rw [e', ← linearLocations_iff (multisegment_located hc ⟨l⟩) (region_located hc h)]
  refine linearLocations_union (fun p => ?_) (fun s hs => ?_) (fun s hs => ?_) (List.exists_mem_of_ne_nil _ nl) r
  · simp [multisegment_located hc, segment_located hc, segsPts]
  · exact ⟨s.start, (segment_located hc s _).mpr s.start_mem⟩
  · obtain ⟨q, hq, -⟩ := C73_multisegment_in_region hc (a := ⟨[s]⟩) (by simp) (single_valid (hl s hs)) h
    exact ⟨q, (e s hs q).mp hq⟩

/-- C86: the relation of two contours is known from `contour_in_contour` and `contour_in_region`: it is `CROSS` instead
of `TOUCH` if the second answer is `CROSS`. -/
theorem C86_contours {a b : Contour K} (ha : a.Simple) (hb : b.Simple) :
    ∃ r q, planar.contourInContour a b context = .ok r ∧ planar.contourInRegion a b context = .ok q ∧
      ContoursRel a b (if r = .touch ∧ q = .cross then .cross else r) := by
  obtain ⟨r, hr, h⟩ := C36_contour_in_contour_partial hc ha hb
  obtain ⟨q, hq, -⟩ := C33_contour_in_region hc ha hb
  refine ⟨r, q, hr, hq, ?_⟩
  have k := (C33_contour_in_region_iff hc ha hb .cross)
  rw [hq, Except.ok.injEq] at k
  by_cases e : r = .touch ∧ q = .cross
  · rw [if_pos e]
    have k' := k.mp e.2
    rcases h with h | h
    · rw [e.1] at h
      exact absurd k' h.2.2
    · exact h.2.1
  · rw [if_neg e]
    rcases h with h | ⟨h1, h2, -⟩
    · exact h
    · exact absurd ⟨h1, k.mpr h2.2⟩ e

/-- C86: two polygons are related rightly if one of them is given as a multipolygon and the edges of one of them meet
only in common endpoints. -/
theorem C86_polygon_in_polygon {t g : Polygon K} (ht : t.Valid) (hg : g.Valid) (neat : Neat t.edges ∨ Neat g.edges)
    (r : Relation) : planar.polygonInMultipolygon t ⟨[g]⟩ context = .ok r ↔ PolygonRel t g r := by
  obtain ⟨v, e1, e2, e3, e4⟩ := single_multipolygon hg
  rw [C41_polygon_in_multipolygon_iff hc ht v (by simp) (by rwa [e4]), e1, e2, e3]
  rfl

/-- C86: the same for a multiregion and a polygon. -/
theorem C86_multiregion_in_polygon {m : Multiregion K} (hm : Multiregion.Valid m) (hne : m ≠ []) {g : Polygon K}
    (hg : g.Valid) (neat : Neat (m.flatMap Contour.edgeList) ∨ Neat g.edges) (r : Relation) :
    planar.multiregionInMultipolygon m ⟨[g]⟩ context = .ok r ↔
      CompoundRel (Multiregion.interior m) (Multiregion.pts m) (Multiregion.exterior m) g.interior g.pts
        g.exterior r := by
  obtain ⟨v, e1, e2, e3, e4⟩ := single_multipolygon hg
  rw [C41_multiregion_in_multipolygon_iff hc hm v hne (by simp) (by rwa [e4]), e1, e2, e3]

/-- C86: the same for a contour and a polygon. -/
theorem C86_contour_in_polygon {a : Contour K} (ha : a.Simple) {g : Polygon K} (hg : g.Valid) (neat : Neat g.edges)
    (r : Relation) :
    planar.contourInMultipolygon a ⟨[g]⟩ context = .ok r ↔
      LinearCompoundRel a.pts g.interior g.pts g.exterior r := by
  obtain ⟨v, e1, e2, e3, e4⟩ := single_multipolygon hg
  rw [C40_contour_in_multipolygon_iff hc ha v (by rwa [e4]), e1, e2, e3]

end

/-! ### cases -/

/-- The diagonal of the clockwise pentagon which `segment_in_region` takes for touching. -/
theorem C86_example :
    SegmentRegionRel ⟨⟨2, 5⟩, ⟨4, 0⟩⟩ exampleTurned .enclosed ∧
      planar.multisegmentInRegion ⟨[⟨⟨2, 5⟩, ⟨4, 0⟩⟩]⟩ exampleTurned (reference.context : Context ℚ) = .ok .enclosed ∧
      planar.segmentInRegion ⟨⟨2, 5⟩, ⟨4, 0⟩⟩ exampleTurned (reference.context : Context ℚ) = .ok .touch := by
  have h : planar.multisegmentInRegion ⟨[⟨⟨2, 5⟩, ⟨4, 0⟩⟩]⟩ exampleTurned (reference.context : Context ℚ) =
      .ok .enclosed := by decide +kernel
  refine ⟨(C86_multisegment_in_region reference.context_exact (s := ⟨⟨2, 5⟩, ⟨4, 0⟩⟩)
    (show (⟨2, 5⟩ : Point ℚ) ≠ ⟨4, 0⟩ by decide +kernel) exampleTurned_simple _).mp h, h, by decide +kernel⟩

/-- A hole which touches the border: a segment from the outside into the hole has no inner points, but it is
taken for crossing by all three. -/
theorem C86_polygon_counterexample :
    let g : Polygon ℚ := ⟨⟨[⟨0, 0⟩, ⟨8, 0⟩, ⟨8, 8⟩, ⟨0, 8⟩]⟩, [⟨[⟨4, 0⟩, ⟨6, 4⟩, ⟨2, 4⟩]⟩]⟩
    let s : Segment ℚ := ⟨⟨4, -1⟩, ⟨4, 2⟩⟩
    g.Valid ∧ s.Nondegenerate ∧ planar.multisegmentInPolygon ⟨[s]⟩ g reference.context = .ok .cross ∧
      planar.segmentInMultipolygon s ⟨[g]⟩ reference.context = .ok .cross ∧
      s.pts ∩ g.interior = ∅ := by
  intro g s
  refine ⟨Polygon.valid_of_check (by decide +kernel), show (⟨4, -1⟩ : Point ℚ) ≠ ⟨4, 2⟩ by decide +kernel,
    by decide +kernel, by decide +kernel, ?_⟩
  have outer := (C86_multisegment_in_region reference.context_exact (s := ⟨⟨4, -1⟩, ⟨4, 0⟩⟩)
    (show (⟨4, -1⟩ : Point ℚ) ≠ ⟨4, 0⟩ by decide +kernel) (c := ⟨[⟨0, 0⟩, ⟨8, 0⟩, ⟨8, 8⟩, ⟨0, 8⟩]⟩)
    (Contour.simple_of_check (by decide +kernel)) .touch).mp (by decide +kernel)
  have inner := (C86_multisegment_in_region reference.context_exact (s := ⟨⟨4, 0⟩, ⟨4, 2⟩⟩)
    (show (⟨4, 0⟩ : Point ℚ) ≠ ⟨4, 2⟩ by decide +kernel) (c := ⟨[⟨4, 0⟩, ⟨6, 4⟩, ⟨2, 4⟩]⟩)
    (Contour.simple_of_check (by decide +kernel)) .enclosed).mp (by decide +kernel)
  refine Set.eq_empty_iff_forall_notMem.mpr fun p ⟨hp, h1, h2⟩ => ?_
  obtain ⟨t, t0, t1, rfl⟩ := hp
  rcases le_total t (1 / 3) with h | h
  · refine Set.eq_empty_iff_forall_notMem.mp outer.1 _ ⟨⟨3 * t, by linarith, by linarith, ?_⟩, h1⟩
    simp only [s, lerp, Point.mk.injEq]
    constructor <;> ring
  · refine Set.eq_empty_iff_forall_notMem.mp inner.1 _ ⟨⟨(3 * t - 1) / 2, by linarith, by linarith, ?_⟩,
      h2 _ (by simp [g])⟩
    simp only [s, lerp, Point.mk.injEq]
    constructor <;> ring

/-- The polygons of the counterexample to C25. -/
theorem C86_example_polygons :
    let t : Polygon ℚ := ⟨⟨[⟨2, 2⟩, ⟨8, 2⟩, ⟨8, 8⟩, ⟨2, 8⟩]⟩, [⟨[⟨3, 3⟩, ⟨6, 3⟩, ⟨6, 6⟩, ⟨3, 6⟩]⟩]⟩
    let g : Polygon ℚ := ⟨⟨[⟨0, 0⟩, ⟨10, 0⟩, ⟨10, 10⟩, ⟨0, 10⟩]⟩,
      [⟨[⟨4, 4⟩, ⟨5, 4⟩, ⟨5, 5⟩, ⟨4, 5⟩]⟩, ⟨[⟨8, 4⟩, ⟨9, 4⟩, ⟨9, 5⟩, ⟨8, 5⟩]⟩]⟩
    planar.polygonInPolygon t g (reference.context : Context ℚ) = .ok .within ∧
      planar.polygonInMultipolygon t ⟨[g]⟩ (reference.context : Context ℚ) = .ok .enclosed ∧
      PolygonRel t g .enclosed := by
  intro t g
  have h : planar.polygonInMultipolygon t ⟨[g]⟩ (reference.context : Context ℚ) = .ok .enclosed := by decide +kernel
  exact ⟨by decide +kernel, h, (C86_polygon_in_polygon reference.context_exact
    (Polygon.valid_of_check (by decide +kernel)) (Polygon.valid_of_check (by decide +kernel))
    (.inl (neat_of_check (by decide +kernel))) _).mp h⟩

/-- A region in the corner of a polygon whose hole divides it, and its contour. -/
theorem C86_example_divided :
    let g : Polygon ℚ := ⟨⟨[⟨0, 0⟩, ⟨2, 0⟩, ⟨4, 0⟩, ⟨4, 2⟩, ⟨4, 4⟩, ⟨2, 4⟩, ⟨0, 4⟩, ⟨0, 2⟩]⟩,
      [⟨[⟨2, 0⟩, ⟨4, 2⟩, ⟨2, 4⟩, ⟨0, 2⟩]⟩]⟩
    let c : Contour ℚ := ⟨[⟨0, 0⟩, ⟨2, 0⟩, ⟨0, 2⟩]⟩
    g.Valid ∧ c.Simple ∧ Neat g.edges ∧
      planar.regionInPolygon c g (reference.context : Context ℚ) = .ok .enclosed ∧
      planar.regionInMultipolygon c ⟨[g]⟩ (reference.context : Context ℚ) = .ok .component ∧
      planar.contourInPolygon c g (reference.context : Context ℚ) = .ok .enclosed ∧
      planar.contourInMultipolygon c ⟨[g]⟩ (reference.context : Context ℚ) = .ok .component :=
  ⟨Polygon.valid_of_check (by decide +kernel), Contour.simple_of_check (by decide +kernel),
    neat_of_check (by decide +kernel), by decide +kernel, by decide +kernel, by decide +kernel, by decide +kernel⟩

/-- The multiregion of the counterexample to C72. -/
theorem C86_example_parts :
    planar.multiregionInMultipolygon pinchedParts ⟨[pinched]⟩ (reference.context : Context ℚ) = .ok .equal ∧
      Neat (pinchedParts.flatMap Contour.edgeList) :=
  ⟨by decide +kernel, neat_of_check (by decide +kernel)⟩

/-- The squares of the counterexample to C36. -/
theorem C86_example_contours :
    planar.contourInContour exampleSquare exampleDiamond (reference.context : Context ℚ) = .ok .touch ∧
      planar.contourInRegion exampleSquare exampleDiamond (reference.context : Context ℚ) = .ok .cross :=
  ⟨by decide +kernel, by decide +kernel⟩

/-- The whole boundary of a triangle together with an inner and an outer segment is taken for touching. -/
theorem C86_example_pieces :
    let c : Contour ℚ := ⟨[⟨0, 0⟩, ⟨4, 0⟩, ⟨0, 4⟩]⟩
    let l : List (Segment ℚ) := [⟨⟨0, 0⟩, ⟨4, 0⟩⟩, ⟨⟨4, 0⟩, ⟨0, 4⟩⟩, ⟨⟨0, 4⟩, ⟨0, 0⟩⟩, ⟨⟨0, 0⟩, ⟨1, 1⟩⟩, ⟨⟨0, 0⟩, ⟨-1, -1⟩⟩]
    c.Simple ∧ planar.multisegmentInRegion ⟨l⟩ c (reference.context : Context ℚ) = .ok .touch ∧
      LinearCompoundRel (segsPts l) c.interior c.pts c.exterior .cross := by
  intro c l
  have h : c.Simple := Contour.simple_of_check (by decide +kernel)
  refine ⟨h, by decide +kernel, (C86_pieces reference.context_exact (l := l) (by
    unfold Segment.Nondegenerate; decide +kernel) (by simp [l]) h .cross).mpr ?_⟩
  exact ⟨.inr (.inl ⟨⟨⟨0, 0⟩, ⟨1, 1⟩⟩, by simp [l], by decide +kernel⟩),
    .inr (.inl ⟨⟨⟨0, 0⟩, ⟨-1, -1⟩⟩, by simp [l], by decide +kernel⟩)⟩

end Orient.Props
