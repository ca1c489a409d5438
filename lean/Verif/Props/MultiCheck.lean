import Verif.Props.RegionRelations
import Verif.Lemmas.Sweep.Parts
import Verif.Lemmas.SimpleCheck
import Verif.Lemmas.ValidCheck

/-! A decision procedure for validity of multiregions, polygons and multipolygons, used to show that
hypotheses of theorems are met by concrete cases. -/

set_option linter.unusedSectionVars false

namespace Orient

variable {K : Type} [Field K] [LinearOrder K] [IsStrictOrderedRing K]

/-- No segment of the first list has more than one point in common with one of the second list. -/
def reference.sharesNothing (l m : List (Segment K)) : Bool :=
  l.all fun a => m.all fun b => decide (a.start ≠ a.finish) && decide (b.start ≠ b.finish) &&
    reference.meetsAtPoint a b

theorem reference.sharesNothing_spec {l m : List (Segment K)}
    (h : reference.sharesNothing l m = true) : ¬ SharesPiece (segsPts l) (segsPts m) := by
  rw [sharesPiece_segs_iff]
  rintro ⟨s, hs, t, ht, hn⟩
  unfold reference.sharesNothing at h
  rw [List.all_eq_true] at h
  have h := h s hs
  rw [List.all_eq_true] at h
  have h := h t ht
  simp only [Bool.and_eq_true, decide_eq_true_eq] at h
  have hr := reference.segmentsRelation_spec h.1.1 h.1.2
  have hm := h.2
  unfold reference.meetsAtPoint at hm
  obtain ⟨x, hx, y, hy, hxy⟩ := hn
  revert hr hm
  cases reference.segmentsRelation s t <;> simp only [SegmentsRel, Bool.false_eq_true,
    false_implies, implies_true, forall_const]
  · intro e; rw [e] at hx; exact hx
  · rintro ⟨p, e, -⟩; rw [e] at hx hy; exact hxy (hx.trans hy.symm)
  · rintro ⟨p, e, -⟩; rw [e] at hx hy; exact hxy (hx.trans hy.symm)

/-- The regions have no common inner points. -/
def reference.regionsApart (a b : Contour K) : Bool :=
  decide (planar.regionInRegion a b reference.context = .ok .disjoint) ||
    decide (planar.regionInRegion a b reference.context = .ok .touch)

theorem reference.regionsApart_spec {a b : Contour K} (ha : a.Simple) (hb : b.Simple)
    (h : reference.regionsApart a b = true) : a.interior ∩ b.interior = ∅ := by
  unfold reference.regionsApart at h
  rw [Bool.or_eq_true, decide_eq_true_eq, decide_eq_true_eq] at h
  rw [Props.C32_region_in_region_iff reference.context_exact ha hb,
    Props.C32_region_in_region_iff reference.context_exact ha hb] at h
  refine Set.eq_empty_iff_forall_notMem.mpr ?_
  rintro x ⟨h1, h2⟩
  rcases h with h | h
  · exact Set.eq_empty_iff_forall_notMem.mp h x ⟨.inl h1, .inl h2⟩
  · exact h1.1 (h.2 ⟨.inl h1, .inl h2⟩).1

/-- The decision procedure for multiregions. -/
def reference.isMultiregion (m : List (Contour K)) : Bool :=
  m.all reference.isSimple && decide (m.Pairwise fun a b => (reference.regionsApart a b &&
    reference.sharesNothing a.edgeList b.edgeList) = true)

theorem Multiregion.valid_of_check {m : List (Contour K)} (h : reference.isMultiregion m = true) :
    Multiregion.Valid m := by
  unfold reference.isMultiregion at h
  rw [Bool.and_eq_true, decide_eq_true_eq, List.all_eq_true] at h
  have hs : ∀ c ∈ m, Contour.Simple c := fun c hc => Contour.simple_of_check (h.1 c hc)
  refine ⟨hs, h.2.imp_of_mem ?_⟩
  intro a b ha hb hab
  rw [Bool.and_eq_true] at hab
  exact ⟨reference.regionsApart_spec (hs a ha) (hs b hb) hab.1,
    reference.sharesNothing_spec hab.2⟩

/-- The decision procedure for polygons. -/
def reference.isPolygon (g : Polygon K) : Bool :=
  reference.isSimple g.border && reference.isMultiregion g.holes && g.holes.all fun d =>
    (decide (planar.regionInRegion d g.border reference.context = .ok .within) ||
      decide (planar.regionInRegion d g.border reference.context = .ok .enclosed)) &&
    reference.sharesNothing g.border.edgeList d.edgeList

theorem Polygon.valid_of_check {g : Polygon K} (h : reference.isPolygon g = true) : g.Valid := by
  unfold reference.isPolygon at h
  rw [Bool.and_eq_true, Bool.and_eq_true, List.all_eq_true] at h
  obtain ⟨⟨h1, h2⟩, h3⟩ := h
  have hb := Contour.simple_of_check h1
  have hh := Multiregion.valid_of_check h2
  refine ⟨hb, hh, fun d hd => ?_, fun d hd => ?_⟩
  · have := h3 d hd
    rw [Bool.and_eq_true, Bool.or_eq_true, decide_eq_true_eq, decide_eq_true_eq,
      Props.C32_region_in_region_iff reference.context_exact (hh.simple d hd) hb,
      Props.C32_region_in_region_iff reference.context_exact (hh.simple d hd) hb] at this
    rcases this.1 with h | h
    · exact fun x hx => h (.inl hx)
    · exact h.1
  · have := h3 d hd
    rw [Bool.and_eq_true] at this
    exact reference.sharesNothing_spec this.2

/-- A decision procedure for multipolygons whose borders have no common inner points. -/
def reference.isMultipolygon (m : Multipolygon K) : Bool :=
  m.polygons.all reference.isPolygon && decide (m.polygons.Pairwise fun a b =>
    (reference.regionsApart a.border b.border && reference.sharesNothing a.edges b.edges) = true)

theorem Multipolygon.valid_of_check {m : Multipolygon K} (h : reference.isMultipolygon m = true) :
    m.Valid := by
  unfold reference.isMultipolygon at h
  rw [Bool.and_eq_true, decide_eq_true_eq, List.all_eq_true] at h
  have hs : ∀ g ∈ m.polygons, Polygon.Valid g := fun g hg => Polygon.valid_of_check (h.1 g hg)
  refine ⟨hs, h.2.imp_of_mem ?_⟩
  intro a b ha hb hab
  rw [Bool.and_eq_true] at hab
  refine ⟨?_, ?_⟩
  · have := reference.regionsApart_spec (hs a ha).border (hs b hb).border hab.1
    refine Set.eq_empty_iff_forall_notMem.mpr fun x hx => ?_
    exact Set.eq_empty_iff_forall_notMem.mp this x ⟨hx.1.1, hx.2.1⟩
  · rw [← Polygon.segsPts_edges, ← Polygon.segsPts_edges]
    exact reference.sharesNothing_spec hab.2

/-- The decision procedure for segments meeting only in endpoints. -/
theorem neat_of_check {l : List (Segment K)}
    (h : l.Pairwise fun a b => reference.meetsAtEndpoints a b = true) : Neat l :=
  h.imp reference.meetsAtEndpoints_spec

end Orient
