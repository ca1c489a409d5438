import Verif.Props.ExactAnswers
import Verif.Props.PolygonRelations
import Verif.Props.SegmentBesideRegion
import Verif.Props.PolygonExamples

/-! C74: what is answered about regions, contours and segments and a polygon, without exceptions.

C26 lists answers which may be wrong.  Here it is said when they are. -/

set_option linter.unusedSectionVars false

namespace Orient.Props

variable {K : Type} [Field K] [LinearOrder K] [IsStrictOrderedRing K]

theorem HoledAnswer.only {X Y : Prop} {S I B E : Set (Point K)} (hS : S.Nonempty) (h1 : I ∩ B = ∅)
    (h2 : I ∩ E = ∅) (h3 : B ∩ E = ∅) {r : Relation} (h : HoledAnswer X Y S I B E r) (q : Relation) :
    HoledAnswer X Y S I B E q ↔ q = r := by
  refine ⟨fun h' => ?_, fun e => e ▸ h⟩
  by_cases hX : X
  · rw [h.1 hX, h'.1 hX]
  · by_cases hY : Y
    · rw [h.2.1 hX hY, h'.2.1 hX hY]
    · exact LinearCompoundRel.unique hS h1 h2 h3 (h'.2.2 hX hY) (h.2.2 hX hY)

/-- The answer about a contour or a segment and a polygon is right unless a crossing is found although
there are no inner or no outer points, or parts of the border and of holes are mixed. -/
theorem C74_right_iff {X Y : Prop} {S I B E : Set (Point K)} (h1 : I ∩ B = ∅) {r : Relation}
    (hY : Y → S ⊆ B) (h : HoledAnswer X Y S I B E r) :
    LinearCompoundRel S I B E r ↔ (X → (S ∩ I).Nonempty ∧ (S ∩ E).Nonempty) ∧ (¬ X → ¬ Y) := by
  refine ⟨fun h' => ⟨fun hX => ?_, fun hX y => ?_⟩, fun h' => ?_⟩
  · rw [h.1 hX] at h'
    exact h'
  · rw [h.2.1 hX y] at h'
    obtain ⟨x, x1, x2⟩ := h'.2.1
    exact Set.eq_empty_iff_forall_notMem.mp h1 x ⟨x2, hY y x1⟩
  · by_cases hX : X
    · rw [h.1 hX]
      exact h'.1 hX
    · exact h.2.2 hX (h'.2 hX)

section

variable {Ib Bb Eb Ih Bh Eh : Set (Point K)}

/-- The relations to the border and to the holes decide the answer. -/
theorem holed_table {S : Set (Point K)} (g : Holed Ib Bb Eb Ih Bh Eh) {X : Prop} {r r' q : Relation}
    (h : LinearCompoundRel S Ib Bb Eb r) (n : ∃ x, x ∈ S) (h' : CrossAnswer X S Ih Bh Eh r')
    (hq : r ≠ .within → r ≠ .enclosed → q = r)
    (hq' : r = .within ∨ r = .enclosed → (r' = .disjoint → q = r) ∧ (r' = .touch → q = .enclosed) ∧
      (r' = .cross → q = .cross) ∧ (r' = .component → q = .component) ∧
      (r' = .enclosed → q = .touch) ∧ (r' = .within → q = .disjoint)) :
    HoledAnswer ((S ∩ Ib).Nonempty ∧
        ((S ∩ Eb).Nonempty ∨ X ∨ ((S ∩ Ih).Nonempty ∧ (S ∩ Eh).Nonempty)))
      (S ⊆ Bb ∪ Bh ∧ ¬ S ⊆ Bb ∧ ¬ S ⊆ Bh) S (Ib ∩ Eh) (Bb ∪ Bh) (Eb ∪ Ih) q := by
  obtain ⟨⟨a1, a2, a3, a4⟩, ⟨b1, b2, b3, b4⟩, c1, c2⟩ := g
  obtain ⟨b, hb⟩ := n
  unfold HoledAnswer
  by_cases hin : r = .within ∨ r = .enclosed
  · have hq' := hq' hin
    obtain ⟨o1, o2⟩ : (∀ x, x ∈ S → x ∉ Eb) ∧ ∃ x, x ∈ S ∧ x ∈ Ib := by
      rcases hin with rfl | rfl <;>
        simp only [LinearCompoundRel, Set.subset_def, Set.eq_empty_iff_forall_notMem, Set.Nonempty,
          Set.mem_inter_iff] at h <;> grind
    have o3 : ¬ (S ∩ Eb).Nonempty := fun ⟨x, x1, x2⟩ => o1 x x1 x2
    by_cases hX : X
    · have := hq'.2.2.1 (h'.1 hX)
      refine ⟨fun _ => this, fun hn => absurd ⟨o2, .inr (.inl hX)⟩ hn, fun hn => absurd ⟨o2, .inr (.inl hX)⟩ hn⟩
    have h' := h'.2 hX
    cases r' <;> first
      | exact h'.elim
      | simp only [LinearCompoundRel, Set.subset_def, Set.eq_empty_iff_forall_notMem, Set.Nonempty,
          Set.mem_inter_iff] at h'
    · rw [hq'.1 rfl]
      rcases hin with rfl | rfl <;>
      simp only [LinearCompoundRel, Set.subset_def, Set.eq_empty_iff_forall_notMem, Set.Nonempty,
        Set.mem_inter_iff, Set.mem_union] at h o3 ⊢ <;> grind
    · rw [hq'.2.1 rfl]
      simp only [LinearCompoundRel, Set.subset_def, Set.eq_empty_iff_forall_notMem, Set.Nonempty,
        Set.mem_inter_iff, Set.mem_union] at o3 ⊢
      grind
    · rw [hq'.2.2.1 rfl]
      simp only [Set.Nonempty, Set.mem_inter_iff] at o3 ⊢
      grind
    · rw [hq'.2.2.2.1 rfl]
      simp only [LinearCompoundRel, Set.subset_def, Set.Nonempty, Set.mem_inter_iff, Set.mem_union] at o3 ⊢
      grind
    · rw [hq'.2.2.2.2.1 rfl]
      simp only [LinearCompoundRel, Set.subset_def, Set.eq_empty_iff_forall_notMem, Set.Nonempty,
        Set.mem_inter_iff, Set.mem_union] at o3 ⊢
      grind
    · rw [hq'.2.2.2.2.2 rfl]
      simp only [LinearCompoundRel, Set.subset_def, Set.Nonempty, Set.mem_inter_iff, Set.mem_union] at o3 ⊢
      grind
  · have hq := hq (fun h => hin (.inl h)) (fun h => hin (.inr h))
    subst hq
    cases q <;> first
      | exact h.elim
      | exact absurd (.inl rfl) hin
      | exact absurd (.inr rfl) hin
      | (simp only [LinearCompoundRel, Set.subset_def, Set.eq_empty_iff_forall_notMem, Set.Nonempty,
          Set.mem_inter_iff, Set.mem_union] at h ⊢
         grind)

end

/-! ### regions -/

/-- C74: `region_in_polygon` answers `ENCLOSED` if the region is a component of the polygon, and the
relation of the interiors and the boundaries otherwise. -/
theorem C74_region_in_polygon {context : Context K} (hc : context.Exact) {a : Region K} {g : Polygon K}
    (ha : a.Simple) (hg : g.Valid) :
    ∃ r, planar.regionInPolygon a g context = .ok r ∧ ∀ q,
      ((CompoundRel a.interior a.pts a.exterior g.interior g.pts g.exterior .component → q = .enclosed) ∧
        (¬ CompoundRel a.interior a.pts a.exterior g.interior g.pts g.exterior .component →
          CompoundRel a.interior a.pts a.exterior g.interior g.pts g.exterior q)) ↔ q = r := by
  obtain ⟨b1, b2, b3⟩ := polygon_apart hg
  obtain ⟨k1, k2⟩ := polygon_nonempty hg
  have uniq : ∀ {r r'}, CompoundRel a.interior a.pts a.exterior g.interior g.pts g.exterior r →
      CompoundRel a.interior a.pts a.exterior g.interior g.pts g.exterior r' → r = r' := fun h h' =>
    CompoundRel.unique ha.interior_nonempty ha.exists_mem k1 k2 a.interior_pts a.interior_exterior b1 b2 h h'
  obtain ⟨r, hr, h⟩ := C26_region_in_polygon hc ha hg
  have never : r ≠ .component := by
    rintro rfl
    unfold planar.regionInPolygon polygon.relateRegion at hr
    obtain ⟨r₁, h1, h1'⟩ := C32_region_in_region hc ha hg.border
    have h1 : region.relateRegionBoxed g.border a (context.contourBox g.border) (context.contourBox a)
      context = .ok r₁ := h1
    obtain ⟨r₂, h2, -⟩ := region_in_multiregion hc ha hg.holes
    simp only [h1, h2, bind, Except.bind, pure, Except.pure] at hr
    have h3 : r₁ ≠ .component := by
      rintro rfl
      exact absurd h1' (ha.not_component hg.border)
    revert hr h3
    cases r₁ <;> cases r₂ <;> simp <;> split_ifs <;> simp
  refine ⟨r, hr, fun q => ⟨fun hq => ?_, ?_⟩⟩
  · by_cases hcm : CompoundRel a.interior a.pts a.exterior g.interior g.pts g.exterior .component
    · rcases h with h | ⟨rfl, -, -⟩
      · exact absurd (uniq h hcm) never
      · exact hq.1 hcm
    · rcases h with h | ⟨-, -, h⟩
      · exact uniq (hq.2 hcm) h
      · exact absurd h hcm
  · rintro rfl
    rcases h with h | ⟨rfl, -, h⟩
    · exact ⟨fun hcm => absurd (uniq h hcm) never, fun _ => h⟩
    · exact ⟨fun _ => rfl, fun hn => absurd h hn⟩

/-! ### contours -/

/-- C74: `contour_in_polygon` answers `CROSS` if the contour has points inside of the border, and outside
of it, or its edges cross those of holes, or it has points inside of holes and points outside of all holes;
`ENCLOSED` otherwise if it is a part of the boundary, but neither of the border nor of the holes; and the
relation to the interior, the boundary and the exterior otherwise. -/
theorem C74_contour_in_polygon {context : Context K} (hc : context.Exact) {a : Contour K} {g : Polygon K}
    (ha : a.Simple) (hg : g.Valid) :
    ∃ r, planar.contourInPolygon a g context = .ok r ∧ ∀ q,
      HoledAnswer ((a.pts ∩ g.border.interior).Nonempty ∧ ((a.pts ∩ g.border.exterior).Nonempty ∨
          EdgesCross (g.holes.flatMap Contour.edgeList) a.edgeList ∨
          ((a.pts ∩ Multiregion.interior g.holes).Nonempty ∧
            (a.pts ∩ Multiregion.exterior g.holes).Nonempty)))
        (a.pts ⊆ g.pts ∧ ¬ a.pts ⊆ g.border.pts ∧ ¬ a.pts ⊆ Multiregion.pts g.holes)
        a.pts g.interior g.pts g.exterior q ↔ q = r := by
  obtain ⟨b1, b2, b3⟩ := polygon_apart hg
  obtain ⟨r, hr, h⟩ := C33_contour_in_region hc ha hg.border
  have hr : region.relateContourBoxed g.border a (context.contourBox a) context = .ok r := hr
  obtain ⟨r', hr', h'⟩ := C73_contour_in_multiregion hc ha hg.holes
  have hr' : multiregion.relateContourBoxed g.holes a (context.contourBox a) context = .ok r' := hr'
  have h' := (h' r').mpr rfl
  set q := if r = .enclosed ∨ r = .within then (match (generalizing := false) r' with
      | .disjoint => r
      | .touch => .enclosed
      | .cross => .cross
      | .component => .component
      | .enclosed => .touch
      | _ => .disjoint) else r with hq
  have table := holed_table (q := q) hg.holed h ha.exists_mem h' (fun h1 h2 => by
      rw [hq, if_neg (by simp [h1, h2])]) (fun h1 => by
      rw [hq, if_pos h1.symm]
      refine ⟨?_, ?_, ?_, ?_, ?_, ?_⟩ <;> (intro e; rw [e]))
  refine ⟨q, ?_, HoledAnswer.only ha.exists_mem b1 b2 b3 table⟩
  unfold planar.contourInPolygon polygon.relateContour
  simp only [hr, hr', bind, Except.bind, pure, Except.pure]
  rw [hq]
  by_cases hin : r = .enclosed ∨ r = .within
  · by_cases hne : g.holes = []
    · have e : r' = .disjoint := by
        by_cases hX : EdgesCross (g.holes.flatMap Contour.edgeList) a.edgeList
        · rw [hne] at hX
          obtain ⟨-, -, v, hv, -⟩ := hX
          simp at hv
        · refine LinearCompoundRel.unique ha.exists_mem ?_ ?_ ?_ (h'.2 hX) (r' := .disjoint) ?_ <;>
            simp [hne, Multiregion.interior, Multiregion.pts, Multiregion.exterior, LinearCompoundRel,
              Set.subset_def]
      rw [if_neg fun h => h.1 hne, if_pos hin, e]
    · rw [if_pos ⟨hne, hin⟩, if_pos hin]
      cases r' <;> rfl
  · rw [if_neg fun h => hin h.2, if_neg hin]

/-! ### segments -/

/-- C74: if `segment_in_region` answers the right relation of the segment to the border then
`segment_in_polygon` answers `CROSS` if the segment has points inside of the border, and outside of it, or
it crosses an edge of a hole, or it has points inside of holes and points outside of all holes; `ENCLOSED`
otherwise if it is a part of the boundary, but neither of the border nor of the holes; and the relation to
the interior, the boundary and the exterior otherwise. -/
theorem C74_segment_in_polygon {context : Context K} (hc : context.Exact) {s : Segment K} {g : Polygon K}
    (hs : s.Nondegenerate) (hg : g.Valid) {r : Relation}
    (hr : planar.segmentInRegion s g.border context = .ok r)
    (h : LinearCompoundRel s.pts g.border.interior g.border.pts g.border.exterior r) :
    ∃ r, planar.segmentInPolygon s g context = .ok r ∧ ∀ q,
      HoledAnswer ((s.pts ∩ g.border.interior).Nonempty ∧ ((s.pts ∩ g.border.exterior).Nonempty ∨
          EdgesCross (g.holes.flatMap Contour.edgeList) [s] ∨
          ((s.pts ∩ Multiregion.interior g.holes).Nonempty ∧
            (s.pts ∩ Multiregion.exterior g.holes).Nonempty)))
        (s.pts ⊆ g.pts ∧ ¬ s.pts ⊆ g.border.pts ∧ ¬ s.pts ⊆ Multiregion.pts g.holes)
        s.pts g.interior g.pts g.exterior q ↔ q = r := by
  obtain ⟨b1, b2, b3⟩ := polygon_apart hg
  have hr : region.relateSegment g.border s context = .ok r := hr
  obtain ⟨r', hr', h'⟩ := C73_segment_in_multiregion hc hs hg.holes
  have hr' : multiregion.relateSegment g.holes s context = .ok r' := hr'
  have h' := (h' r').mpr rfl
  have ns : s.pts.Nonempty := ⟨_, s.start_mem⟩
  set q := if r = .within ∨ r = .enclosed then (match (generalizing := false) r' with
      | .disjoint => r
      | .touch => .enclosed
      | .enclosed => .touch
      | .within => .disjoint
      | relation => relation) else r with hq
  have table := holed_table (q := q) hg.holed h ns h' (fun h1 h2 => by
      rw [hq, if_neg (by simp [h1, h2])]) (fun h1 => by
      rw [hq, if_pos h1]
      refine ⟨?_, ?_, ?_, ?_, ?_, ?_⟩ <;> (intro e; rw [e]))
  refine ⟨q, ?_, HoledAnswer.only ns b1 b2 b3 table⟩
  unfold planar.segmentInPolygon polygon.relateSegment
  simp only [hr, hr', bind, Except.bind, pure, Except.pure]
  rw [hq]
  by_cases hin : r = .within ∨ r = .enclosed
  · by_cases hne : g.holes = []
    · have e : r' = .disjoint := by
        by_cases hX : EdgesCross (g.holes.flatMap Contour.edgeList) [s]
        · rw [hne] at hX
          obtain ⟨-, -, v, hv, -⟩ := hX
          simp at hv
        · refine LinearCompoundRel.unique ns ?_ ?_ ?_ (h'.2 hX) (r' := .disjoint) ?_ <;>
            simp [hne, Multiregion.interior, Multiregion.pts, Multiregion.exterior, LinearCompoundRel,
              Set.subset_def]
      rw [if_neg fun h => h.1 hne, if_pos hin, e]
    · rw [if_pos ⟨hne, hin⟩, if_pos hin]
      cases r' <;> rfl
  · rw [if_neg fun h => hin h.2, if_neg hin]

/-! ### Concrete cases -/

/-- A corner cut off from a polygon by a hole: it is a component, so `ENCLOSED` is answered, and its
contour consists of parts of the border and of the hole. -/
theorem C74_example :
    planar.regionInPolygon exampleCorner exampleDivided (reference.context : Context ℚ) = .ok .enclosed ∧
      CompoundRel exampleCorner.interior exampleCorner.pts exampleCorner.exterior exampleDivided.interior
        exampleDivided.pts exampleDivided.exterior .component ∧
      planar.contourInPolygon exampleCorner exampleDivided (reference.context : Context ℚ)
        = .ok .enclosed ∧
      (exampleCorner.pts ⊆ exampleDivided.pts ∧ ¬ exampleCorner.pts ⊆ exampleDivided.border.pts ∧
        ¬ exampleCorner.pts ⊆ Multiregion.pts exampleDivided.holes) := by
  obtain ⟨-, -, -, h⟩ := C26_counterexample_region
  refine ⟨?_, h, C26_counterexample_contour.2.2.1, ?_⟩
  · obtain ⟨r, hr, h'⟩ := C74_region_in_polygon reference.context_exact exampleCorner_simple
      exampleDivided_valid
    exact hr.trans (congrArg _ ((((h' r).mpr rfl).1 h)))
  · by_contra hn
    obtain ⟨r, hr, h'⟩ := C74_contour_in_polygon reference.context_exact exampleCorner_simple
      exampleDivided_valid
    rw [C26_counterexample_contour.2.2.1] at hr
    cases hr
    have h' := (h' .enclosed).mpr rfl
    have := h'.2.2 (fun hX => Relation.noConfusion (h'.1 hX)) hn
    obtain ⟨x, x1, x2⟩ := this.2.1
    exact exampleDivided_valid.split.ib x x2 (exampleCorner_boundary x1)

/-- A segment from a hole to the outside: it has points inside and outside of the border, so `CROSS` is
answered although it has no points inside of the polygon. -/
theorem C74_segment_example :
    planar.segmentInPolygon ⟨⟨2, 3⟩, ⟨2, 5⟩⟩ exampleTouchedBorder (reference.context : Context ℚ)
      = .ok .cross := by
  have hr : planar.segmentInRegion ⟨⟨2, 3⟩, ⟨2, 5⟩⟩ exampleTouchedBorder.border
    (reference.context : Context ℚ) = .ok .cross := by decide +kernel
  have h1 : ((⟨⟨2, 3⟩, ⟨2, 5⟩⟩ : Segment ℚ).pts ∩ exampleTouchedBorder.border.interior).Nonempty :=
    ⟨⟨2, 3⟩, Segment.start_mem _, (C10_point_in_region_unique reference.context_exact ⟨2, 3⟩
      exampleTouchedBorder.border .interior).mp (by decide +kernel)⟩
  have h2 : ((⟨⟨2, 3⟩, ⟨2, 5⟩⟩ : Segment ℚ).pts ∩ exampleTouchedBorder.border.exterior).Nonempty :=
    ⟨⟨2, 5⟩, Segment.finish_mem _, (C10_point_in_region_unique reference.context_exact ⟨2, 5⟩
      exampleTouchedBorder.border .exterior).mp (by decide +kernel)⟩
  obtain ⟨r, hr, h⟩ := C74_segment_in_polygon reference.context_exact
    (by unfold Segment.Nondegenerate; decide +kernel) C39_counterexample.1 hr ⟨h1, h2⟩
  exact hr.trans (congrArg _ (((h r).mpr rfl).1 ⟨h1, .inl h2⟩))

end Orient.Props
