import Verif.Props.CompositionExamples

/-! C56: it does not matter by which kind of geometry a set of points is given. -/

set_option linter.unusedSectionVars false

namespace Orient.Props

variable {K : Type} [Field K] [LinearOrder K] [IsStrictOrderedRing K]

/-- The ways to give a region: as it is, as multiregion, as polygon without holes and as multipolygon. -/
def wraps (c : Contour K) : List (Area K) := [.region c, .multiregion [c], .polygon ⟨c, []⟩, .multipolygon ⟨[⟨c, []⟩]⟩]

theorem wraps_valid {c : Contour K} (h : c.Simple) : ∀ a ∈ wraps c, a.Valid := by
  have m : Multiregion.Valid [c] := ⟨by simpa using h, by simp⟩
  have g : (⟨c, []⟩ : Polygon K).Valid := ⟨h, ⟨by simp, by simp⟩, by simp, by simp⟩
  simp only [wraps, List.mem_cons, List.not_mem_nil, or_false, forall_eq_or_imp, forall_eq, Area.Valid]
  exact ⟨h, ⟨m, by simp⟩, g, ⟨by simpa using g, by simp⟩, by simp⟩

/-- A polygon without holes has a connected interior. -/
theorem connected_of_no_holes {c : Contour K} (h : c.Simple) : (⟨c, []⟩ : Polygon K).Connected := by
  intro p hp q hq
  simp only [Polygon.interior, Polygon.pts, Multiregion.pts, Set.mem_ofPred_eq] at hp hq ⊢
  have e : c.pts ∪ {p | ∃ b ∈ ([] : Multiregion K), p ∈ Contour.pts b} = c.pts := by simp
  rw [e, h.joined_iff (h.split.ib p hp.1) (h.split.ib q hq.1)]
  simp [hp.1, hq.1]

theorem wraps_suit {c d : Contour K} (hc : c.Simple) (hd : d.Simple) :
    ∀ a ∈ wraps c, ∀ b ∈ wraps d, a.Suits b := by
  have c1 := connected_of_no_holes hc
  have c2 := connected_of_no_holes hd
  have n1 := hc.neat
  have n2 := hd.neat
  simp [wraps, Area.Suits, c1, c2, n1, n2, Polygon.edges]

theorem wraps_suit_contour (c : Contour K) {d : Contour K} (hd : d.Simple) :
    ∀ b ∈ wraps d, (Line.contour c).Suits b := by
  have c2 := connected_of_no_holes hd
  have n2 := hd.neat
  have e : Neat ([] : List (Segment K)) := List.Pairwise.nil
  simp [wraps, Line.Suits, c2, n2, Polygon.edges, e]

theorem wraps_suit_multisegment {m : Multisegment K} {d : Contour K} (hd : d.Simple)
    (h : ¬ d.pts ⊆ segsPts m.segments) : ∀ b ∈ wraps d, (Line.multisegment m).Suits b := by
  have n2 := hd.neat
  have h' : ¬ (⟨d, []⟩ : Polygon K).pts ⊆ segsPts m.segments := fun k => h fun p hp => k (.inl hp)
  simp [wraps, Line.Suits, n2, Polygon.edges, h, h']

theorem wraps_suit_segment {s : Segment K} {d : Contour K} (hd : d.Simple) (h : (Line.segment s).Suits (.region d)) :
    ∀ b ∈ wraps d, (Line.segment s).Suits b := by
  have n2 := hd.neat
  have e : Neat ([] : List (Segment K)) := List.Pairwise.nil
  simp only [Line.Suits] at h
  obtain ⟨h1, h2⟩ := h
  simp [wraps, Line.Suits, n2, Polygon.edges, h1, h2, e, Multiregion.pts]

section

variable {context : Context K} (hc : context.Exact)

include hc

/-! ### areal geometries with the same points have the same relations -/

/-- C56: if points are located in the same way with respect to `a` and `a'` and with respect to `b` and `b'`, the
relations are the same, whichever the kinds of the geometries are. -/
theorem C56_areas {a a' b b' : Area K} (va : a.Valid) (va' : a'.Valid) (vb : b.Valid) (vb' : b'.Valid)
    (h : a.Suits b) (h' : a'.Suits b') (ha : ∀ p, a.locate context p = a'.locate context p)
    (hb : ∀ p, b.locate context p = b'.locate context p) : a.relate context b = a'.relate context b' := by
  obtain ⟨r, hr⟩ := area_relate_total hc va vb h
  rw [hr, eq_comm, C54_areas hc va' vb' h', ← funext ha, ← funext hb, ← C54_areas hc va vb h, hr]

/-- C56: the same for a linear and an areal geometry. -/
theorem C56_lines {a a' : Line K} {b b' : Area K} (va : a.Valid) (va' : a'.Valid) (vb : b.Valid) (vb' : b'.Valid)
    (h : a.Suits b) (h' : a'.Suits b') (ha : ∀ p, a.locate context p = a'.locate context p)
    (hb : ∀ p, b.locate context p = b'.locate context p) : a.relate context b = a'.relate context b' := by
  obtain ⟨r, hr⟩ := line_relate_total hc va vb h
  rw [hr, eq_comm, C54_lines hc va' vb' h', ← funext ha, ← funext hb, ← C54_lines hc va vb h, hr]

/-! ### geometries of different kinds with the same points -/

theorem located_eq {l l' : Point K → Location} {I B E I' B' E' : Set (Point K)} (h : Located l I B E)
    (h' : Located l' I' B' E') (hi : I = I') (hb : B = B') (p : Point K) : l p = l' p := by
  subst hi hb
  have := h.interior p
  have := h.boundary p
  have := h'.interior p
  have := h'.boundary p
  cases e : l p <;> cases e' : l' p <;> simp_all

/-- C56: points are located with respect to all forms of a region in the same way. -/
theorem C56_locate_region {c : Contour K} (h : c.Simple) : ∀ a ∈ wraps c, ∀ p,
    a.locate context p = planar.pointInRegion p c context := by
  have v := wraps_valid h
  simp only [wraps, List.mem_cons, List.not_mem_nil, or_false, forall_eq_or_imp, forall_eq, Area.Valid,
    Area.locate] at v ⊢
  obtain ⟨-, ⟨v1, -⟩, v2, v3, -⟩ := v
  refine ⟨fun _ => trivial, ?_, ?_, ?_⟩
  · refine located_eq hc (multiregion_located hc v1) (region_located hc h) ?_ ?_ <;> ext p <;>
      simp [Multiregion.interior, Multiregion.pts]
  · refine located_eq hc (polygon_located hc v2) (region_located hc h) ?_ ?_ <;> ext p <;>
      simp [Polygon.interior, Polygon.pts, Multiregion.exterior, Multiregion.pts]
  · refine located_eq hc (multipolygon_located hc v3) (region_located hc h) ?_ ?_ <;> ext p <;>
      simp [Multipolygon.interior, Multipolygon.pts, Polygon.interior, Polygon.pts, Multiregion.exterior,
        Multiregion.pts]

/-- C56: a multiregion and the multipolygon of its regions. -/
theorem C56_locate_multiregion {m : Multiregion K} (h : Multiregion.Valid m)
    (h' : (⟨m.map fun c => ⟨c, []⟩⟩ : Multipolygon K).Valid) (p : Point K) :
    planar.pointInMultiregion p m context = planar.pointInMultipolygon p ⟨m.map fun c => ⟨c, []⟩⟩ context := by
  refine located_eq hc (multiregion_located hc h) (multipolygon_located hc h') ?_ ?_ p <;> ext p <;>
    simp [Multipolygon.interior, Multipolygon.pts, Polygon.interior, Polygon.pts, Multiregion.exterior,
      Multiregion.pts, Multiregion.interior]

/-- C56: a polygon and the multipolygon of it. -/
theorem C56_locate_polygon {g : Polygon K} (h : g.Valid) (p : Point K) :
    planar.pointInPolygon p g context = planar.pointInMultipolygon p ⟨[g]⟩ context := by
  have h' : (⟨[g]⟩ : Multipolygon K).Valid := ⟨by simpa using h, by simp⟩
  refine located_eq hc (polygon_located hc h) (multipolygon_located hc h') ?_ ?_ p <;> ext p <;>
    simp [Multipolygon.interior, Multipolygon.pts]

/-- C56: linear geometries which consist of the same points. -/
theorem C56_locate_lines {a b : Line K} (h : linePts a = linePts b) (p : Point K) :
    a.locate context p = b.locate context p := by
  have ha := line_located hc a p
  have hb := line_located hc b p
  have na := line_not_interior (context := context) a p
  have nb := line_not_interior (context := context) b p
  rw [h] at ha
  cases e : a.locate context p <;> cases e' : b.locate context p <;> simp_all

/-- C56: a segment and the multisegment of it. -/
theorem C56_locate_segment (s : Segment K) (p : Point K) :
    planar.pointInSegment p s context = planar.pointInMultisegment p ⟨[s]⟩ context :=
  C56_locate_lines hc (a := .segment s) (b := .multisegment ⟨[s]⟩) (by ext p; simp [linePts, segsPts]) p

/-- C56: a contour and the multisegment of its edges. -/
theorem C56_locate_contour (c : Contour K) (p : Point K) :
    planar.pointInContour p c context = planar.pointInMultisegment p ⟨c.edgeList⟩ context :=
  C56_locate_lines hc (a := .contour c) (b := .multisegment ⟨c.edgeList⟩) rfl p

/-! ### the forms of a region -/

/-- C56: all sixteen ways to relate two regions give the same answer. -/
theorem C56_region {a b : Contour K} (ha : a.Simple) (hb : b.Simple) : ∀ x ∈ wraps a, ∀ y ∈ wraps b,
    x.relate context y = planar.regionInRegion a b context := fun x hx y hy =>
  C56_areas hc (a' := .region a) (b' := .region b) (wraps_valid ha x hx) ha (wraps_valid hb y hy) hb
    (wraps_suit ha hb x hx y hy) trivial (C56_locate_region hc ha x hx) (C56_locate_region hc hb y hy)

/-- C56: all four ways to relate a contour to a region give the same answer. -/
theorem C56_contour {a b : Contour K} (ha : a.Simple) (hb : b.Simple) : ∀ y ∈ wraps b,
    (Line.contour a).relate context y = planar.contourInRegion a b context := fun y hy =>
  C56_lines hc (a' := .contour a) (b' := .region b) ha ha (wraps_valid hb y hy) hb
    (wraps_suit_contour a hb y hy) trivial (fun _ => rfl) (C56_locate_region hc hb y hy)

/-- C56: all four ways to relate a multisegment which does not contain the boundary of the region to a region give
the same answer. -/
theorem C56_multisegment {a : Multisegment K} {b : Contour K} (ha : SegmentsValid a.segments) (na : a.segments ≠ [])
    (hb : b.Simple) (h : ¬ b.pts ⊆ segsPts a.segments) : ∀ y ∈ wraps b,
    (Line.multisegment a).relate context y = planar.multisegmentInRegion a b context := fun y hy =>
  C56_lines hc (a' := .multisegment a) (b' := .region b) ⟨ha, na⟩ ⟨ha, na⟩ (wraps_valid hb y hy) hb
    (wraps_suit_multisegment hb h y hy) h (fun _ => rfl) (C56_locate_region hc hb y hy)

/-- C56: all four ways to relate a segment to a region give the same answer if the segment has no piece of the
boundary and the region is counterclockwise, or an endpoint is not on the boundary, or both are not vertices. -/
theorem C56_segment {a : Segment K} {b : Contour K} (ha : a.Nondegenerate) (hb : b.Simple)
    (h : ¬ SharesPiece a.pts b.pts)
    (h' : Counterclockwise b ∨ a.start ∉ b.pts ∨ a.finish ∉ b.pts ∨ (a.start ∉ b.vertices ∧ a.finish ∉ b.vertices)) :
    ∀ y ∈ wraps b, (Line.segment a).relate context y = planar.segmentInRegion a b context := fun y hy =>
  C56_lines hc (a' := .segment a) (b' := .region b) ha ha (wraps_valid hb y hy) hb
    (wraps_suit_segment hb ⟨h, h'⟩ y hy) ⟨h, h'⟩ (fun _ => rfl) (C56_locate_region hc hb y hy)

end

/-! ### cases -/

/-- C56 applies to all forms of overlapping regions, and to a contour and a multisegment. -/
theorem C56_example : (∀ x ∈ wraps sameQ, ∀ y ∈ wraps sameT, x.relate reference.context y = .ok .overlap) ∧
    (∀ y ∈ wraps sameQ, (Line.contour sameT).relate reference.context y = .ok .cross) ∧
    (∀ y ∈ wraps sameQ, (Line.multisegment sameX).relate reference.context y = .ok .cross) ∧
    ∀ y ∈ wraps sameQ, (Line.segment sameS).relate reference.context y = .ok .cross := by
  obtain ⟨q, -, t, -⟩ := same_simple
  have s := someLines_suit (.segment sameS) (by simp [someLines]) (.region sameQ) (by simp [someAreas])
  have x := someLines_suit (.multisegment sameX) (by simp [someLines]) (.region sameQ) (by simp [someAreas])
  refine ⟨fun x hx y hy => ?_, fun y hy => ?_, fun y hy => ?_, fun y hy => ?_⟩
  · rw [C56_region ex q t x hx y hy]
    decide +kernel
  · rw [C56_contour ex t q y hy]
    decide +kernel
  · rw [C56_multisegment ex sameX_ok.2.2.1 sameX_ok.1 q x y hy]
    decide +kernel
  · rw [C56_segment ex sameS_ok.1 q s.1 s.2 y hy]
    decide +kernel

/-- C56 applies to a polygon with a hole and the multipolygon of it, and to a segment and the multisegment of it. -/
theorem C56_example_polygon : planar.polygonInPolygon sameF sameG reference.context =
      planar.polygonInMultipolygon sameF ⟨[sameG]⟩ reference.context ∧
    planar.segmentInPolygon sameS sameG reference.context =
      planar.multisegmentInMultipolygon ⟨[sameS]⟩ ⟨[sameG]⟩ reference.context := by
  obtain ⟨g, -, cg, -⟩ := sameG_ok
  obtain ⟨f, -, cf, -⟩ := sameF_ok
  have m : (⟨[sameG]⟩ : Multipolygon ℚ).Valid := ⟨by simpa using g, by simp⟩
  have n : Neat ((⟨[sameG]⟩ : Multipolygon ℚ).polygons.flatMap Polygon.edges) := neat_of_check (by decide +kernel)
  have s := someLines_suit (.segment sameS) (by simp [someLines]) (.polygon sameG) (by simp [someAreas])
  constructor
  · refine C56_areas ex (a := .polygon sameF) (a' := .polygon sameF) (b := .polygon sameG)
      (b' := .multipolygon ⟨[sameG]⟩) f f g ⟨m, by simp⟩ ⟨cf, cg, ?_, ?_⟩ (.inr n) (fun _ => rfl)
      (C56_locate_polygon ex g)
    · exact fun d hd => not_touch (g.holes.simple d hd) same_simple.2.2.1 (by revert d; decide +kernel)
    · exact fun d hd => absurd hd List.not_mem_nil
  · refine C56_lines ex (a := .segment sameS) (a' := .multisegment ⟨[sameS]⟩) (b := .polygon sameG)
      (b' := .multipolygon ⟨[sameG]⟩) sameS_ok.1 ⟨⟨by simpa using sameS_ok.1, by simp⟩, by simp⟩ g ⟨m, by simp⟩ s
      ⟨n, ?_⟩ (C56_locate_segment ex sameS) (C56_locate_polygon ex g)
    simp only [List.mem_cons, List.not_mem_nil, or_false, forall_eq]
    exact not_covered (p := ⟨0, 0⟩) (.inl ((contour_boundary ex _ _).mp (by decide +kernel))) (by decide +kernel)

/-- For a clockwise region and a segment between points of its boundary the answer depends on the form of the
region. -/
theorem C56_counterexample :
    let c : Contour ℚ := ⟨[⟨3, 0⟩, ⟨1, 0⟩, ⟨1, 3⟩, ⟨4, 4⟩, ⟨3, 1⟩]⟩
    let s : Segment ℚ := ⟨⟨3, 0⟩, ⟨1, 2⟩⟩
    c.Simple ∧ s.Nondegenerate ∧ planar.segmentInRegion s c reference.context = .ok .touch ∧
      planar.segmentInMultiregion s [c] reference.context = .ok .enclosed ∧
      planar.segmentInPolygon s ⟨c, []⟩ reference.context = .ok .touch ∧
      planar.segmentInMultipolygon s ⟨[⟨c, []⟩]⟩ reference.context = .ok .enclosed :=
  ⟨Contour.simple_of_check (by decide +kernel), by unfold Segment.Nondegenerate; decide +kernel, by decide +kernel,
    by decide +kernel, by decide +kernel, by decide +kernel⟩

end Orient.Props
