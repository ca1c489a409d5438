import Verif.Lemmas.AgreeRelate
import Verif.Props.Composition

/-! C65: a context needs to be exact only for the vertices of the operands and the points in which their edges
meet. -/

set_option linter.unusedSectionVars false

namespace Orient.Props

variable {K : Type} [Field K] [LinearOrder K]

/-- The edges of an areal geometry. -/
def Area.edges : Area K → List (Segment K)
  | .region c => Contour.edgeList c
  | .multiregion m => Multiregion.edgeList m
  | .polygon g => g.edgeList
  | .multipolygon m => m.edgeList

/-- Not empty, with edges that are not degenerate. -/
def Area.Drawn : Area K → Prop
  | .region c => Contour.Drawn c
  | .multiregion m => Multiregion.Drawn m ∧ m ≠ []
  | .polygon g => g.Drawn
  | .multipolygon m => m.Drawn ∧ m.polygons ≠ []

/-- The edges of a linear geometry. -/
def Line.edges : Line K → List (Segment K)
  | .segment s => [s]
  | .multisegment m => m.segments
  | .contour c => c.edgeList

/-- Not empty, with edges that are not degenerate. -/
def Line.Drawn : Line K → Prop
  | .segment s => s.Nondegenerate
  | .multisegment m => (∀ s ∈ m.segments, s.Nondegenerate) ∧ m.segments ≠ []
  | .contour c => c.Drawn

/-- The function relating the geometries compares angles. -/
def Line.Measures : Line K → Line K → Prop
  | .multisegment _, .multisegment _ => True
  | .multisegment _, .contour _ => True
  | .contour _, .multisegment _ => True
  | _, _ => False

variable [IsStrictOrderedRing K]

theorem simple_drawn {c : Contour K} (h : c.Simple) : c.Drawn := by
  refine ⟨fun e => ?_, fun e he => h.nondegenerate he⟩
  have := h.three
  rw [e] at this
  simp at this

theorem Area.Valid.drawn {a : Area K} (h : a.Valid) : a.Drawn := by
  rcases a with a | a | a | a
  · exact simple_drawn h
  · exact ⟨fun c hc => simple_drawn (h.1.1 c hc), h.2⟩
  · exact ⟨simple_drawn h.1, fun c hc => simple_drawn (h.2.1 c hc)⟩
  · exact ⟨fun g hg => ⟨simple_drawn (h.1.1 g hg).1, fun c hc => simple_drawn ((h.1.1 g hg).2.1 c hc)⟩, h.2⟩

theorem Line.Valid.drawn {a : Line K} (h : a.Valid) : a.Drawn := by
  rcases a with a | a | a
  · exact h
  · exact ⟨h.1.1, h.2⟩
  · exact simple_drawn h

variable {c d : Context K}

/-- The relation of areal geometries. -/
theorem C65_areas {a b : Area K} (ha : a.Drawn) (hb : b.Drawn)
    (hc : c.ExactOn (nodes (a.edges ++ b.edges)) (a.edges ++ b.edges)) (hd : d.Exact) :
    a.relate c b = a.relate d b := by
  have S : Same c d (nodes (a.edges ++ b.edges)) (a.edges ++ b.edges) := ⟨hc, hd, subset_rfl⟩
  have h1 : a.edges ⊆ a.edges ++ b.edges := List.subset_append_left _ _
  have h2 : b.edges ⊆ a.edges ++ b.edges := List.subset_append_right _ _
  rcases a with a | a | a | a <;> rcases b with b | b | b | b
  · exact S.regions h2 h1 hb ha
  · exact S.multiregionRegion h2 h1 hb.1 ha
  · exact S.polygonRegion h2 hb h1 ha
  · exact S.multipolygonRegion h2 hb.1 h1 ha
  · exact congrArg (Except.map Relation.complement) (S.multiregionRegion h1 h2 ha.1 hb)
  · exact S.multiregions h2 h1 hb.1 ha.1 hb.2 ha.2
  · exact S.polygonMultiregion h2 hb h1 ha.1
  · exact S.multipolygonMultiregion h2 hb.1 h1 ha.1 hb.2 ha.2
  · exact congrArg (Except.map Relation.complement) (S.polygonRegion h1 ha h2 hb)
  · exact congrArg (Except.map Relation.complement) (S.polygonMultiregion h1 ha h2 hb.1)
  · exact S.polygons h2 h1 hb ha
  · exact S.multipolygonPolygon h2 hb.1 h1 ha
  · exact congrArg (Except.map Relation.complement) (S.multipolygonRegion h1 ha.1 h2 hb)
  · exact congrArg (Except.map Relation.complement) (S.multipolygonMultiregion h1 ha.1 h2 hb.1 ha.2 hb.2)
  · exact congrArg (Except.map Relation.complement) (S.multipolygonPolygon h1 ha.1 h2 hb)
  · exact S.multipolygons h2 hb.1 h1 ha.1 hb.2 ha.2

/-- The relation of a linear geometry to an areal one. -/
theorem C65_line {a : Line K} {b : Area K} (ha : a.Drawn) (hb : b.Drawn)
    (hc : c.ExactOn (nodes (a.edges ++ b.edges)) (a.edges ++ b.edges)) (hd : d.Exact) :
    a.relate c b = a.relate d b := by
  have S : Same c d (nodes (a.edges ++ b.edges)) (a.edges ++ b.edges) := ⟨hc, hd, subset_rfl⟩
  have h1 : a.edges ⊆ a.edges ++ b.edges := List.subset_append_left _ _
  have h2 : b.edges ⊆ a.edges ++ b.edges := List.subset_append_right _ _
  rcases a with a | a | a <;> rcases b with b | b | b | b
  · exact S.regionRelateSegment h2 hb (h1 (List.mem_singleton_self a)) ha
  · exact S.multiregionSegment h2 (h1 (List.mem_singleton_self a)) hb.1 ha
  · exact S.polygonSegment h2 hb (h1 (List.mem_singleton_self a)) ha
  · exact S.multipolygonSegment h2 hb.1 (h1 (List.mem_singleton_self a)) ha
  · exact S.regionMultisegment h2 h1 hb ha.1 ha.2
  · exact S.multiregionMultisegment h2 h1 hb.1 ha.1 ha.2
  · exact S.polygonMultisegment h2 hb h1 ha.1 ha.2
  · exact S.multipolygonMultisegment h2 hb.1 h1 ha.1 ha.2
  · exact S.regionContour h2 h1 hb ha
  · exact S.multiregionContour h2 h1 hb.1 ha
  · exact S.polygonContour h2 hb h1 ha
  · exact S.multipolygonContour h2 hb.1 h1 ha

/-- The relation of linear geometries. -/
theorem C65_lines {a b : Line K} (ha : a.Drawn) (hb : b.Drawn)
    (hc : c.ExactOn (nodes (a.edges ++ b.edges)) (a.edges ++ b.edges))
    (hm : a.Measures b → c.MeasuresOn (nodes (a.edges ++ b.edges))) (hd : d.Exact) :
    a.relateLine c b = a.relateLine d b := by
  have S : Same c d (nodes (a.edges ++ b.edges)) (a.edges ++ b.edges) := ⟨hc, hd, subset_rfl⟩
  have h1 : a.edges ⊆ a.edges ++ b.edges := List.subset_append_left _ _
  have h2 : b.edges ⊆ a.edges ++ b.edges := List.subset_append_right _ _
  have al := fun h => (hm h).alike hd
  rcases a with a | a | a <;> rcases b with b | b | b
  · exact congrArg _ (S.relateSegments (S.piece (h2 (List.mem_singleton_self b)) hb)
      (S.piece (h1 (List.mem_singleton_self a)) ha))
  · exact congrArg _ (S.multisegmentRelateSegment h2 hb.1 (h1 (List.mem_singleton_self a)) ha)
  · exact S.contourRelateSegment h2 hb (h1 (List.mem_singleton_self a)) ha
  · exact congrArg (fun r : Relation => Except.ok r.complement)
      (S.multisegmentRelateSegment h1 ha.1 (h2 (List.mem_singleton_self b)) hb)
  · exact S.multisegments (al trivial) h2 h1 hb.1 ha.1 hb.2 ha.2
  · exact S.contourMultisegment (al trivial) h2 h1 hb ha.1 ha.2
  · exact congrArg (Except.map Relation.complement) (S.contourRelateSegment h1 ha (h2 (List.mem_singleton_self b)) hb)
  · exact congrArg (Except.map Relation.complement) (S.contourMultisegment (al trivial) h1 h2 ha hb.1 hb.2)
  · exact S.contours h2 h1 hb ha

/-- The location of a point with respect to an areal geometry. -/
theorem C65_locate_area {a : Area K} {p : Point K} (hc : c.ExactOn (insert p (nodes a.edges)) a.edges)
    (hd : d.Exact) : a.locate c p = a.locate d p := by
  have S : Same c d (insert p (nodes a.edges)) a.edges := ⟨hc, hd, Set.subset_insert _ _⟩
  have hp : p ∈ insert p (nodes a.edges) := Set.mem_insert _ _
  rcases a with a | a | a | a
  · exact S.locateRegion (List.Subset.refl _) hp
  · exact S.locateMultiregion (List.Subset.refl _) hp
  · exact S.locatePolygon (List.Subset.refl _) hp
  · exact S.locateMultipolygon (List.Subset.refl _) hp

/-- The location of a point with respect to a linear geometry. -/
theorem C65_locate_line {a : Line K} {p : Point K} (hc : c.ExactOn (insert p (nodes a.edges)) a.edges)
    (hd : d.Exact) : a.locate c p = a.locate d p := by
  have S : Same c d (insert p (nodes a.edges)) a.edges := ⟨hc, hd, Set.subset_insert _ _⟩
  have hp : p ∈ insert p (nodes a.edges) := Set.mem_insert _ _
  rcases a with a | a | a
  · exact S.locateSegment (List.mem_singleton_self a) hp
  · exact S.locateMultisegment (List.Subset.refl _) hp
  · exact S.locateContour (List.Subset.refl _) hp

/-- For example, the relation of regions is right. -/
theorem C65_region_in_region {a b : Region K} (ha : Contour.Simple a) (hb : Contour.Simple b)
    (hc : c.ExactOn (nodes (Contour.edgeList a ++ Contour.edgeList b)) (Contour.edgeList a ++ Contour.edgeList b))
    (r : Relation) : planar.regionInRegion a b c = .ok r ↔
      CompoundRel (Contour.interior a) (Contour.pts a) (Contour.exterior a) (Contour.interior b) (Contour.pts b)
        (Contour.exterior b) r := by
  have := C65_areas (a := .region a) (b := .region b) (simple_drawn ha) (simple_drawn hb) hc
    (reference.context_exact : (reference.context : Context K).Exact)
  rw [show planar.regionInRegion a b c = planar.regionInRegion a b reference.context from this]
  exact C32_region_in_region_iff reference.context_exact ha hb r

/-! ### rounded intersections -/

theorem not_cross_of_collinear {t g : Segment K} (ht : t.Nondegenerate) (hg : g.Nondegenerate) (h : t.Collinear g) :
    ¬ SegmentsRel t g .cross := by
  intro hr
  have := (reference.collinearRelation_spec ht hg h).unique ht hg hr
  unfold reference.collinearRelation at this
  simp only at this
  split_ifs at this

/-- A context which is exact, except that it rounds intersection points, is exact where rounding does not change
anything. -/
theorem rounding_exactOn (hd : d.Exact) {round : Point K → Point K} {N : Set (Point K)} {l : List (Segment K)}
    (hl : ∀ e ∈ l, e.Nondegenerate) (hN : nodes l ⊆ N) (hr : ∀ p ∈ N, round p = p) :
    (d.rounding round).ExactOn N l where
  counterclockwise v _ a _ b _ := hd.counterclockwise v a b
  clockwise v _ a _ b _ := hd.clockwise v a b
  contains s hs p _ := hd.contains s p
  relation t ht g hg := hd.relation t g ht.1 hg.1
  intersection t ht g hg h := by
    have hi : d.segmentsIntersection t g ∈ t.pts ∩ g.pts := hd.intersection t g ht.1 hg.1 h
    have hn : d.segmentsIntersection t g ∈ N := by
      have hrel := hd.relation t g ht.1 hg.1
      have ends : ∀ {s : Segment K}, s ∈ pieces N l → ∀ {p}, s.IsEndpoint p → p ∈ N := by
        rintro s hs p (rfl | rfl)
        · exact hs.2.1
        · exact hs.2.2.1
      rcases h with h | h
      · rw [show d.segmentsRelation t g = .touch from h] at hrel
        obtain ⟨p, hp, h1⟩ := hrel
        rw [hp] at hi
        cases hi
        rcases h1 with h1 | h1
        · exact ends ht h1
        · exact ends hg h1
      · rw [show d.segmentsRelation t g = .cross from h] at hrel
        obtain ⟨e, he, hte⟩ := ht.2.2.2
        obtain ⟨f, hf, hgf⟩ := hg.2.2.2
        refine hN (.inr ⟨e, he, f, hf, ?_⟩)
        ext q
        refine ⟨fun hq => ?_, ?_⟩
        · by_contra hne
          have hcol : e.Collinear f :=
            Segment.collinear_of_nontrivial (hl f hf) ⟨q, hq, _, ⟨hte hi.1, hgf hi.2⟩, hne⟩
          exact not_cross_of_collinear ht.1 hg.1 (State.collinear_of_subset (hl e he) ht.1 hte hgf hcol) hrel
        · rintro rfl
          exact ⟨hte hi.1, hgf hi.2⟩
    show round (d.segmentsIntersection t g) ∈ _
    rw [hr _ hn]
    exact hi
  contourSegments := hd.contourSegments
  segmentBox := hd.segmentBox
  segmentsBox := hd.segmentsBox
  contourBox := hd.contourBox
  contoursBox := hd.contoursBox
  polygonBox := hd.polygonBox
  polygonsBox := hd.polygonsBox

theorem Area.Drawn.nondegenerate {a : Area K} (h : a.Drawn) : ∀ e ∈ a.edges, e.Nondegenerate := by
  rcases a with a | a | a | a
  · exact h.2
  · exact h.1.nondegenerate
  · exact Polygon.Drawn.nondegenerate h
  · exact h.1.nondegenerate

theorem Line.Drawn.nondegenerate {a : Line K} (h : a.Drawn) : ∀ e ∈ a.edges, e.Nondegenerate := by
  rcases a with a | a | a
  · exact fun e he => List.mem_singleton.mp he ▸ h
  · exact h.1
  · exact h.2

/-- Rounding of intersection points does not matter if it does not change the vertices and the points in which edges
meet. -/
theorem C65_rounding_areas {a b : Area K} (ha : a.Drawn) (hb : b.Drawn) (hd : d.Exact) {round : Point K → Point K}
    (hr : ∀ p ∈ nodes (a.edges ++ b.edges), round p = p) : a.relate (d.rounding round) b = a.relate d b :=
  C65_areas ha hb (rounding_exactOn hd (fun e he => (List.mem_append.mp he).elim (ha.nondegenerate e)
    (hb.nondegenerate e)) subset_rfl hr) hd

/-- Rounding of intersection points for a linear and an areal geometry. -/
theorem C65_rounding_line {a : Line K} {b : Area K} (ha : a.Drawn) (hb : b.Drawn) (hd : d.Exact)
    {round : Point K → Point K} (hr : ∀ p ∈ nodes (a.edges ++ b.edges), round p = p) :
    a.relate (d.rounding round) b = a.relate d b :=
  C65_line ha hb (rounding_exactOn hd (fun e he => (List.mem_append.mp he).elim (ha.nondegenerate e)
    (hb.nondegenerate e)) subset_rfl hr) hd

/-- Rounding of intersection points for linear geometries. -/
theorem C65_rounding_lines {a b : Line K} (ha : a.Drawn) (hb : b.Drawn) (hd : d.Exact)
    {round : Point K → Point K} (hr : ∀ p ∈ nodes (a.edges ++ b.edges), round p = p) :
    a.relateLine (d.rounding round) b = a.relateLine d b :=
  C65_lines ha hb (rounding_exactOn hd (fun e he => (List.mem_append.mp he).elim (ha.nondegenerate e)
    (hb.nondegenerate e)) subset_rfl hr)
    (fun _ => ⟨fun a _ b _ p _ q _ => hd.dotProduct a b p q, fun a _ b _ => hd.pointsSquaredDistance a b⟩) hd

/-- If edges meet only in vertices, the nodes are the vertices. -/
theorem nodes_of_meet {l : List (Segment K)} (h : ∀ s ∈ l, ∀ t ∈ l, ∀ p, s.pts ∩ t.pts = {p} →
    s.IsEndpoint p ∨ t.IsEndpoint p) : nodes l = {p | ∃ s ∈ l, s.IsEndpoint p} := by
  ext p
  constructor
  · rintro (hp | ⟨s, hs, t, ht, hp⟩)
    · exact hp
    · rcases h s hs t ht p hp with h | h
      · exact ⟨s, hs, h⟩
      · exact ⟨t, ht, h⟩
  · exact .inl

/-- If no edges cross and rounding keeps the vertices, then it does not matter. -/
theorem C65_no_crossings {a b : Area K} (ha : a.Drawn) (hb : b.Drawn) (hd : d.Exact) {round : Point K → Point K}
    (hm : ∀ s ∈ a.edges ++ b.edges, ∀ t ∈ a.edges ++ b.edges, ¬ SegmentsRel s t .cross)
    (hr : ∀ s ∈ a.edges ++ b.edges, round s.start = s.start ∧ round s.finish = s.finish) :
    a.relate (d.rounding round) b = a.relate d b := by
  refine C65_rounding_areas ha hb hd fun p hp => ?_
  rw [nodes_of_meet] at hp
  · obtain ⟨s, hs, rfl | rfl⟩ := hp
    · exact (hr s hs).1
    · exact (hr s hs).2
  · intro s hs t ht p hp
    by_contra hn
    push Not at hn
    exact hm s hs t ht ⟨p, hp, hn⟩

end Orient.Props
