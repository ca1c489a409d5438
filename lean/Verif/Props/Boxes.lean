import Verif.Props.MultipolygonRelations

/-! C22: what is skipped because bounding boxes do not meet. -/

set_option linter.unusedSectionVars false

namespace Orient.Props

open eventsQueue State

variable {K : Type} [Field K] [LinearOrder K] [IsStrictOrderedRing K]

/-- C22: sets of points with boxes which do not meet have no common points. -/
theorem C22_disjoint_boxes {S T : Set (Point K)} {a b : Box K} (ha : IsBoxOf a S) (hb : IsBoxOf b T)
    (h : box.disjointWith a b = true) : S ∩ T = ∅ :=
  box.inter_empty ha hb h

/-- C22: the bounding boxes of the context are boxes of the operands together with their interiors. -/
theorem C22_boxes {context : Context K} (hc : context.Exact) :
    (∀ s : Segment K, IsBoxOf (context.segmentBox s) s.pts) ∧
    (∀ l : List (Segment K), l ≠ [] → IsBoxOf (context.segmentsBox l) (segsPts l)) ∧
    (∀ c : Contour K, c.Simple → IsBoxOf (context.contourBox c) (c.interior ∪ c.pts)) ∧
    (∀ m : Multiregion K, Multiregion.Valid m → m ≠ [] →
      IsBoxOf (context.contoursBox m) (Multiregion.interior m ∪ Multiregion.pts m)) ∧
    (∀ g : Polygon K, g.Valid → IsBoxOf (context.polygonBox g) (g.interior ∪ g.pts)) ∧
    ∀ m : Multipolygon K, m.Valid → m.polygons ≠ [] →
      IsBoxOf (context.polygonsBox m.polygons) (m.interior ∪ m.pts) :=
  ⟨hc.segmentBox, hc.segmentsBox, fun c h => (hc.contourBox c h.ne_nil).interior,
    fun _ h hn => multiregion_box hc h hn, fun _ h => h.box hc, fun _ h hn => multipolygon_box hc h hn⟩

section

variable {α : Type} {boxOf : α → Box K} {segmentsOf : α → Py (List (SegmentEndpoints K))}
  {edges : α → List (Segment K)} {int ext : α → Set (Point K)} {parts : List α}

/-- The correction for skipped parts. -/
theorem parts_corrected (h : Parts boxOf segmentsOf edges int ext parts)
    {test : List (SegmentEndpoints K)} {T : List (Segment K)} {I E : Set (Point K)}
    (ot : Oriented false test T I E) {testBox : Box K} (hb : IsBoxOf testBox (I ∪ segsPts T))
    (hk : kept boxOf testBox parts ≠ []) (hs : kept boxOf testBox parts ≠ parts) {r : Relation}
    (hr : CompoundRel I (segsPts T) E {x | ∃ p ∈ kept boxOf testBox parts, x ∈ int p}
      (segsPts ((kept boxOf testBox parts).flatMap edges))
      {x | ∀ p ∈ kept boxOf testBox parts, x ∈ ext p} r) :
    CompoundRel I (segsPts T) E {x | ∃ p ∈ parts, x ∈ int p} (segsPts (parts.flatMap edges))
      {x | ∀ p ∈ parts, x ∈ ext p} (correctSkipped false r) := by
  obtain ⟨L, hL, oL⟩ := h.outline _ (kept_sublist testBox)
  obtain ⟨I₂, B₂, E₂, e1, e2, e3, f1, f2, f3, f4, f5, f6⟩ := h.split hb
  have ha : allKept boxOf testBox parts = false := by
    rw [← Bool.not_eq_true]
    exact fun h => hs (f6 h)
  have nG := h.ne_kept hk
  rw [e1, e2, e3]
  have near := fun z hz => (oL.outline.near ot.outline (z := z) hz).1
  obtain ⟨w, hw⟩ := List.exists_mem_of_ne_nil _ nG
  have hB : (segsPts ((kept boxOf testBox parts).flatMap edges)).Nonempty :=
    ⟨w.start, w, hw, w.start_mem⟩
  refine hr.skip f1 ?_ (f5 ha) (oL.outline.inhabited nG).1 hB f2 f3 (fun z hz h => (near z hz h).2)
  intro x hx
  have hn := fun h' => Set.eq_empty_iff_forall_notMem.mp f4 x ⟨h', .inl hx⟩
  exact (ot.outline.cover fun h' => hn (.inr h')).resolve_left fun h' => hn (.inl h')

end

/-- C22: if some but not all regions of a multiregion are skipped, since their boxes do not meet the box
of a region, and `r` is the relation with the others then the corrected `r` is the relation with the
multiregion. -/
theorem C22_multiregion {context : Context K} (hc : context.Exact) {a : Region K} {m : Multiregion K}
    (ha : a.Simple) (hm : Multiregion.Valid m) {k : Multiregion K}
    (hk : k = m.filter fun c => !box.disjointWith (context.contourBox a) (context.contourBox c))
    (h0 : k ≠ []) (h1 : k ≠ m) {r : Relation}
    (hr : CompoundRel a.interior a.pts a.exterior (Multiregion.interior k) (Multiregion.pts k)
      (Multiregion.exterior k) r) :
    CompoundRel a.interior a.pts a.exterior (Multiregion.interior m) (Multiregion.pts m)
      (Multiregion.exterior m) (correctSkipped false r) := by
  subst hk
  obtain ⟨la, -, oa⟩ := ha.oriented' hc false
  have := parts_corrected (hm.parts hc) oa (testBox := context.contourBox a)
    (hc.contourBox a ha.ne_nil).interior h0 h1 (r := r) (by
      have e := segsPts_edgesOf (kept context.contourBox (context.contourBox a) m)
      unfold edgesOf at e
      rw [e]
      exact hr)
  have e := segsPts_edgesOf m
  unfold edgesOf at e
  rw [e] at this
  exact this

/-- C22: if some but not all polygons of a multipolygon are skipped, since their boxes do not meet the box
of a region, and `r` is the relation with the others then the corrected `r` is the relation with the
multipolygon. -/
theorem C22_multipolygon_region {context : Context K} (hc : context.Exact) {a : Region K}
    {m : Multipolygon K} (ha : a.Simple) (hm : m.Valid) {k : List (Polygon K)}
    (hk : k = m.polygons.filter fun g =>
      !box.disjointWith (context.contourBox a) (context.polygonBox g))
    (h0 : k ≠ []) (h1 : k ≠ m.polygons) {r : Relation}
    (hr : CompoundRel a.interior a.pts a.exterior (Multipolygon.interior ⟨k⟩) (Multipolygon.pts ⟨k⟩)
      (Multipolygon.exterior ⟨k⟩) r) :
    CompoundRel a.interior a.pts a.exterior m.interior m.pts m.exterior (correctSkipped false r) := by
  subst hk
  obtain ⟨la, -, oa⟩ := ha.oriented' hc false
  have := parts_corrected (hm.parts hc) oa (testBox := context.contourBox a)
    (hc.contourBox a ha.ne_nil).interior h0 h1 (r := r) (by
      have e := segsPts_polygonsEdges ⟨kept context.polygonBox (context.contourBox a) m.polygons⟩
      unfold polygonsEdges at e
      rw [e]
      exact hr)
  have e := segsPts_polygonsEdges m
  unfold polygonsEdges at e
  rw [e] at this
  exact this

/-- C22: if some but not all polygons of a multipolygon are skipped, since their boxes do not meet the box
of a polygon, and `r` is the relation with the others then the corrected `r` is the relation with the
multipolygon. -/
theorem C22_multipolygon_polygon {context : Context K} (hc : context.Exact) {a : Polygon K}
    {m : Multipolygon K} (ha : a.Valid) (hm : m.Valid) {k : List (Polygon K)}
    (hk : k = m.polygons.filter fun g =>
      !box.disjointWith (context.polygonBox a) (context.polygonBox g))
    (h0 : k ≠ []) (h1 : k ≠ m.polygons) {r : Relation}
    (hr : CompoundRel a.interior a.pts a.exterior (Multipolygon.interior ⟨k⟩) (Multipolygon.pts ⟨k⟩)
      (Multipolygon.exterior ⟨k⟩) r) :
    CompoundRel a.interior a.pts a.exterior m.interior m.pts m.exterior (correctSkipped false r) := by
  subst hk
  obtain ⟨la, -, oa⟩ := ha.oriented hc false
  have hb := ha.box hc
  rw [← Polygon.segsPts_edges] at hb hr ⊢
  have := parts_corrected (hm.parts hc) oa hb h0 h1 (r := r) (by
      have e := segsPts_polygonsEdges ⟨kept context.polygonBox (context.polygonBox a) m.polygons⟩
      unfold polygonsEdges at e
      rw [e]
      exact hr)
  have e := segsPts_polygonsEdges m
  unfold polygonsEdges at e
  rw [e] at this
  exact this

/-- C22: a linear geometry has the relation to a multiregion which it has to the regions whose boxes meet
its box; so no correction is needed. -/
theorem C22_linear_multiregion {context : Context K} (hc : context.Exact) {S : Set (Point K)}
    {b : Box K} (hb : IsBoxOf b S) {m : Multiregion K} (hm : Multiregion.Valid m) {k : Multiregion K}
    (hk : k = m.filter fun c => !box.disjointWith b (context.contourBox c)) {r : Relation}
    (hr : LinearCompoundRel S (Multiregion.interior k) (Multiregion.pts k) (Multiregion.exterior k) r) :
    LinearCompoundRel S (Multiregion.interior m) (Multiregion.pts m) (Multiregion.exterior m) r := by
  subst hk
  obtain ⟨I₂, B₂, E₂, e1, e2, e3, f1, f2, f3, -⟩ := (hm.parts hc).split hb
  have e := segsPts_edgesOf m
  have e' := segsPts_edgesOf (kept context.contourBox b m)
  unfold edgesOf at e e'
  rw [e, e'] at e2
  have e1 : Multiregion.interior m = Multiregion.interior (kept context.contourBox b m) ∪ I₂ := e1
  have e3 : Multiregion.exterior m = Multiregion.exterior (kept context.contourBox b m) ∩ E₂ := e3
  rw [e1, e2, e3]
  exact hr.skip f1 f2 f3

/-- C22: a linear geometry has the relation to a multipolygon which it has to the polygons whose boxes
meet its box; so no correction is needed. -/
theorem C22_linear_multipolygon {context : Context K} (hc : context.Exact) {S : Set (Point K)}
    {b : Box K} (hb : IsBoxOf b S) {m : Multipolygon K} (hm : m.Valid) {k : List (Polygon K)}
    (hk : k = m.polygons.filter fun g => !box.disjointWith b (context.polygonBox g)) {r : Relation}
    (hr : LinearCompoundRel S (Multipolygon.interior ⟨k⟩) (Multipolygon.pts ⟨k⟩)
      (Multipolygon.exterior ⟨k⟩) r) :
    LinearCompoundRel S m.interior m.pts m.exterior r := by
  subst hk
  obtain ⟨I₂, B₂, E₂, e1, e2, e3, f1, f2, f3, -⟩ := (hm.parts hc).split hb
  have e := segsPts_polygonsEdges m
  have e' := segsPts_polygonsEdges ⟨kept context.polygonBox b m.polygons⟩
  unfold polygonsEdges at e e'
  rw [e, e'] at e2
  have e1 : m.interior = Multipolygon.interior ⟨kept context.polygonBox b m.polygons⟩ ∪ I₂ := e1
  have e3 : m.exterior = Multipolygon.exterior ⟨kept context.polygonBox b m.polygons⟩ ∩ E₂ := e3
  rw [e1, e2, e3]
  exact hr.skip f1 f2 f3

/-- The first triangle of the multiregion is equal to the only one whose box is met by its box. -/
theorem C22_example :
    CompoundRel (⟨[⟨0, 0⟩, ⟨3, 0⟩, ⟨0, 3⟩]⟩ : Contour ℚ).interior
      (⟨[⟨0, 0⟩, ⟨3, 0⟩, ⟨0, 3⟩]⟩ : Contour ℚ).pts (⟨[⟨0, 0⟩, ⟨3, 0⟩, ⟨0, 3⟩]⟩ : Contour ℚ).exterior
      (Multiregion.interior [⟨[⟨0, 0⟩, ⟨3, 0⟩, ⟨0, 3⟩]⟩, ⟨[⟨5, 0⟩, ⟨8, 0⟩, ⟨8, 3⟩]⟩])
      (Multiregion.pts [⟨[⟨0, 0⟩, ⟨3, 0⟩, ⟨0, 3⟩]⟩, ⟨[⟨5, 0⟩, ⟨8, 0⟩, ⟨8, 3⟩]⟩])
      (Multiregion.exterior [⟨[⟨0, 0⟩, ⟨3, 0⟩, ⟨0, 3⟩]⟩, ⟨[⟨5, 0⟩, ⟨8, 0⟩, ⟨8, 3⟩]⟩]) .component := by
  refine C22_multiregion (context := (reference.context : Context ℚ)) reference.context_exact
    (Contour.simple_of_check (by decide +kernel)) (Multiregion.valid_of_check (by decide +kernel))
    (k := [⟨[⟨0, 0⟩, ⟨3, 0⟩, ⟨0, 3⟩]⟩]) (by decide +kernel) (by decide +kernel) (by decide +kernel)
    (r := .equal) ?_
  exact (C38_region_in_multiregion_iff reference.context_exact
    (Contour.simple_of_check (by decide +kernel)) (Multiregion.valid_of_check (by decide +kernel))
    (by decide +kernel) _).mp (by decide +kernel)

end Orient.Props
