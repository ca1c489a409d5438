import Verif.Props.Itself
import Verif.Props.PolygonExamples
import Verif.Props.MultisegmentsCross

/-! C23, C29: exchanged operands and relations with itself for multiregions, polygons and multipolygons. -/

set_option linter.unusedSectionVars false

namespace Orient.Props

variable {K : Type} [Field K] [LinearOrder K] [IsStrictOrderedRing K]

/-- C23: multiregions. -/
theorem C23_multiregions {context : Context K} (hc : context.Exact) {a b : Multiregion K}
    (ha : Multiregion.Valid a) (hb : Multiregion.Valid b) (na : a ≠ []) (nb : b ≠ []) :
    planar.multiregionInMultiregion b a context
      = (planar.multiregionInMultiregion a b context).map Relation.complement := by
  obtain ⟨r, hr, h⟩ := C38_multiregion_in_multiregion hc ha hb na nb
  rw [hr]
  exact (C38_multiregion_in_multiregion_iff hc hb ha nb na _).mpr h.swap

/-- C23: multipolygons, if in one of them edges meet only in common endpoints. -/
theorem C23_multipolygons {context : Context K} (hc : context.Exact) {a b : Multipolygon K}
    (ha : a.Valid) (hb : b.Valid) (na : a.polygons ≠ []) (nb : b.polygons ≠ [])
    (hn : Neat (a.polygons.flatMap Polygon.edges) ∨ Neat (b.polygons.flatMap Polygon.edges)) :
    planar.multipolygonInMultipolygon b a context
      = (planar.multipolygonInMultipolygon a b context).map Relation.complement := by
  obtain ⟨r, hr, h | ⟨-, h⟩⟩ := C41_multipolygon_in_multipolygon hc ha hb na nb
  · rw [hr]
    exact (C41_multipolygon_in_multipolygon_iff hc hb ha nb na hn.symm _).mpr h.swap
  · exact absurd hn (not_or.mpr h)

/-- C23: polygons with connected interiors, if no hole of one of them touches the border of the other one
from outside. -/
theorem C23_polygons {context : Context K} (hc : context.Exact) {t g : Polygon K}
    (ht : t.Valid) (hg : g.Valid) (htc : t.Connected) (hgc : g.Connected)
    (h1 : ∀ d ∈ g.holes, ¬ RegionRel d t.border .touch) (h2 : ∀ d ∈ t.holes, ¬ RegionRel d g.border .touch) :
    planar.polygonInPolygon g t context
      = (planar.polygonInPolygon t g context).map Relation.complement := by
  obtain ⟨r, hr, -⟩ := C25_polygon_in_polygon hc ht hg htc hgc
  rw [hr]
  exact (C25_polygon_in_polygon_iff hc hg ht hgc htc h2 h1 _).mpr
    ((C25_polygon_in_polygon_iff hc ht hg htc hgc h1 h2 _).mp hr).swap

/-- C23 fails for multisegments: the answers for the operands of `C30_counterexample` are `TOUCH` and, with
the operands exchanged, `CROSS`. -/
theorem C23_counterexample_multisegments :
    ∃ a b : Multisegment ℚ, SegmentsValid a.segments ∧ SegmentsValid b.segments ∧
      planar.multisegmentInMultisegment a b reference.context = .ok .touch ∧
      planar.multisegmentInMultisegment b a reference.context = .ok .cross :=
  ⟨⟨[⟨⟨0, 1⟩, ⟨0, 0⟩⟩, ⟨⟨0, 2⟩, ⟨0, 1⟩⟩, ⟨⟨3, 2⟩, ⟨2, 1⟩⟩, ⟨⟨0, 2⟩, ⟨2, 1⟩⟩]⟩,
    ⟨[⟨⟨2, 1⟩, ⟨2, 3⟩⟩, ⟨⟨3, 1⟩, ⟨1, 0⟩⟩, ⟨⟨0, 1⟩, ⟨3, 1⟩⟩]⟩,
    segmentsValid_of_check (by decide +kernel), segmentsValid_of_check (by decide +kernel),
    by decide +kernel, by decide +kernel⟩

/-- C29: a multiregion is equal to itself. -/
theorem C29_multiregion {context : Context K} (hc : context.Exact) {m : Multiregion K}
    (hm : Multiregion.Valid m) (hne : m ≠ []) : planar.multiregionInMultiregion m m context = .ok .equal :=
  (C38_multiregion_in_multiregion_iff hc hm hm hne hne _).mpr ⟨rfl, rfl⟩

/-- C29: a multipolygon is equal to itself if edges meet only in common endpoints. -/
theorem C29_multipolygon {context : Context K} (hc : context.Exact) {m : Multipolygon K}
    (hm : m.Valid) (hne : m.polygons ≠ []) (hn : Neat (m.polygons.flatMap Polygon.edges)) :
    planar.multipolygonInMultipolygon m m context = .ok .equal :=
  (C41_multipolygon_in_multipolygon_iff hc hm hm hne hne (.inl hn) _).mpr ⟨rfl, rfl⟩

/-- C29: a polygon with a connected interior is equal to itself. -/
theorem C29_polygon {context : Context K} (hc : context.Exact) {g : Polygon K} (hg : g.Valid)
    (hgc : g.Connected) : planar.polygonInPolygon g g context = .ok .equal := by
  have h : ∀ d ∈ g.holes, ¬ RegionRel d g.border .touch := by
    rintro d hd ⟨-, h⟩
    obtain ⟨x, hx⟩ := (hg.holes.simple d hd).interior_nonempty
    have := h ⟨.inl hx, .inl (hg.inside d hd hx)⟩
    exact hx.1 this.1
  exact (C25_polygon_in_polygon_iff hc hg hg hgc hgc h h _).mpr ⟨rfl, rfl⟩

/-- C29: a region is a component of a multiregion which has it and other regions. -/
theorem C29_region_of_multiregion {context : Context K} (hc : context.Exact) {m : Multiregion K}
    (hm : Multiregion.Valid m) {c : Region K} (hcm : c ∈ m) (h2 : 2 ≤ m.length) :
    planar.regionInMultiregion c m context = .ok .component := by
  refine (C38_region_in_multiregion_iff hc (hm.simple c hcm) hm (by rintro rfl; simp at h2) _).mpr
    ⟨fun x hx => ⟨c, hcm, hx⟩, fun x hx => ⟨c, hcm, hx⟩, ?_⟩
  obtain ⟨i, hi, rfl⟩ := List.mem_iff_getElem.mp hcm
  obtain ⟨j, hj, hij⟩ : ∃ j, j < m.length ∧ i ≠ j := by
    by_cases h : i = 0
    · exact ⟨1, by omega, by omega⟩
    · exact ⟨0, by omega, by omega⟩
  have hap : (m[i] : Contour K).interior ∩ (m[j] : Contour K).interior = ∅ := by
    have := List.pairwise_iff_getElem.mp hm.apart
    rcases Nat.lt_or_gt_of_ne hij with h | h
    · exact (this i j hi hj h).1
    · exact (Set.inter_comm _ _).trans (this j i hj hi h).1
  obtain ⟨x, hx⟩ := (hm.simple m[j] (List.getElem_mem hj)).interior_nonempty
  refine ⟨x, ?_, m[j], List.getElem_mem hj, hx⟩
  have h1 : x ∉ (m[i] : Contour K).pts := fun h =>
    Set.eq_empty_iff_forall_notMem.mp (multiregion_apart hm).1 x
      ⟨⟨m[j], List.getElem_mem hj, hx⟩, m[i], List.getElem_mem hi, h⟩
  exact (Contour.cover h1).resolve_left fun h => Set.eq_empty_iff_forall_notMem.mp hap x ⟨h, hx⟩

/-- Multiregions, polygons and multipolygons to which the theorems apply. -/
example : planar.multiregionInMultiregion exampleMultiregion exampleMultiregion reference.context = .ok .equal ∧
    planar.multipolygonInMultipolygon exampleMultipolygon exampleMultipolygon reference.context = .ok .equal ∧
    planar.polygonInPolygon exampleInner exampleInner reference.context = .ok .equal :=
  ⟨C29_multiregion reference.context_exact exampleMultiregion_valid (by decide +kernel),
    C29_multipolygon reference.context_exact exampleMultipolygon_valid (by decide +kernel)
      (neat_of_check (by decide +kernel)),
    C29_polygon reference.context_exact exampleInner_valid exampleInner_connected⟩

end Orient.Props
