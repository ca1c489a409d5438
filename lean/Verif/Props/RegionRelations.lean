import Verif.Lemmas.Sweep.Scenes
import Verif.Lemmas.SimpleCheck
import Verif.Lemmas.Loop
import Verif.Lemmas.ValidCheck
import Mathlib.Algebra.Field.Rat
import Mathlib.Algebra.Order.Ring.Rat
import Verif.Model.Planar

/-! C32-C34: relations of regions, contours and multisegments with regions. -/

set_option linter.unusedSectionVars false

namespace Orient.Props

open eventsQueue State

variable {K : Type} [Field K] [LinearOrder K] [IsStrictOrderedRing K]

/-- C32: `region_in_region` always answers for regions bounded by simple contours, and the answer is the
relation of the interiors and boundaries. -/
theorem C32_region_in_region {context : Context K} (hc : context.Exact) {a b : Region K}
    (ha : a.Simple) (hb : b.Simple) :
    ∃ r, planar.regionInRegion a b context = .ok r ∧
      CompoundRel a.interior a.pts a.exterior b.interior b.pts b.exterior r := by
  unfold planar.regionInRegion region.relateRegion region.relateRegionBoxed
  have boxA := hc.contourBox a ha.ne_nil
  have boxB := hc.contourBox b hb.ne_nil
  by_cases h : box.disjointWith (context.contourBox b) (context.contourBox a) = true
  · refine ⟨.disjoint, by simp [h, pure, Except.pure], ?_⟩
    have := box.inter_empty boxB.interior boxA.interior h
    rw [Set.inter_comm] at this
    exact this
  rw [if_neg h]
  obtain ⟨t, he⟩ := contour.equal_ok hb.ne_nil ha.ne_nil context
  rw [he]
  cases t with
  | true =>
    have hsc : a.SameCycle b := ((C24_shortcut_iff hc ha).mp he).symm
    exact ⟨.equal, rfl, hsc.interior, hsc.pts⟩
  | false =>
    obtain ⟨lb, hlb, nb, ob⟩ := hb.oriented hc
    obtain ⟨la, hla, na, oa⟩ := ha.oriented hc
    obtain ⟨m1, m2⟩ := marks_registered nb na
    have hf := ((Fresh.empty : (State.empty : State K).Fresh).register false nb).register true na
    obtain ⟨r, hr, h⟩ := Outline.compound hc hf (.of_eq m1) (.of_eq m2) ob oa (.inl hb.neat)
      boxB.le_maxX boxA.le_maxX
    refine ⟨r, ?_, h⟩
    rw [← hr]
    unfold region.toOrientedSegments
    rw [hlb, hla]
    rfl

theorem _root_.Orient.Contour.interior_pts (c : Contour K) : c.interior ∩ c.pts = ∅ := by
  rw [Set.eq_empty_iff_forall_notMem]
  exact fun x hx => hx.1.1 hx.2

theorem _root_.Orient.Contour.exterior_pts (c : Contour K) : c.pts ∩ c.exterior = ∅ := by
  rw [Set.eq_empty_iff_forall_notMem]
  exact fun x hx => hx.2.1 hx.1

theorem _root_.Orient.Contour.interior_exterior (c : Contour K) : c.interior ∩ c.exterior = ∅ := by
  rw [Set.eq_empty_iff_forall_notMem]
  exact fun x hx => Contour.not_both hx.1 hx.2

/-- C32: the answer of `region_in_region` is determined by the relation of the interiors and the
boundaries. -/
theorem C32_region_in_region_iff {context : Context K} (hc : context.Exact) {a b : Region K}
    (ha : a.Simple) (hb : b.Simple) (r : Relation) :
    planar.regionInRegion a b context = .ok r ↔
      CompoundRel a.interior a.pts a.exterior b.interior b.pts b.exterior r := by
  obtain ⟨r', hr, h⟩ := C32_region_in_region hc ha hb
  rw [hr]
  constructor
  · intro e; cases e; exact h
  · intro h'
    rw [CompoundRel.unique ha.interior_nonempty ha.exists_mem hb.interior_nonempty hb.exists_mem
      a.interior_pts a.interior_exterior b.interior_pts b.interior_exterior h h']

/-- C34: `multisegment_in_region` always answers for a valid multisegment and a region bounded by a
simple contour, and the answer is the relation of the multisegment to the interior, the boundary and
the exterior, except that a multisegment which contains the whole boundary, inner points and outer
points is answered `TOUCH` instead of `CROSS`. -/
theorem C34_multisegment_in_region {context : Context K} (hc : context.Exact) {a : Multisegment K}
    {b : Region K} (ha : a.segments ≠ []) (va : SegmentsValid a.segments) (hb : b.Simple) :
    ∃ r, planar.multisegmentInRegion a b context = .ok r ∧
      (LinearCompoundRel (segsPts a.segments) b.interior b.pts b.exterior r ∨
        (r = .touch ∧ b.pts ⊆ segsPts a.segments ∧ (segsPts a.segments ∩ b.interior).Nonempty ∧
          (segsPts a.segments ∩ b.exterior).Nonempty)) := by
  unfold planar.multisegmentInRegion region.relateMultisegment
  have boxA := hc.segmentsBox _ ha
  have boxB := hc.contourBox b hb.ne_nil
  simp only
  by_cases h : box.disjointWith (context.segmentsBox a.segments) (context.contourBox b) = true
  · refine ⟨.disjoint, by simp [h, pure, Except.pure], .inl ?_⟩
    have := box.inter_empty boxA boxB.interior h
    intro x hx
    rw [Set.eq_empty_iff_forall_notMem] at this
    have hn := this x
    rcases Contour.cover (c := b) (p := x) fun hm => hn ⟨hx, .inr hm⟩ with h | h
    · exact absurd ⟨hx, .inl h⟩ hn
    · exact h
  rw [if_neg h]
  obtain ⟨lb, hlb, nb, ob⟩ := hb.oriented hc
  have na := (matches_segments a).ne va.1
  obtain ⟨m1, m2⟩ := marks_registered nb na
  have hf := ((Fresh.empty : (State.empty : State K).Fresh).register false nb).register true na
  obtain ⟨r, hr, h⟩ := Outline.linearCompound hc hf (T := a.segments) (.of_eq m1) (by
      rw [m2, map_marked_fst]
      unfold multisegment.toSegmentsEndpoints
      rw [List.map_map]
      exact .of_eq rfl) ob va.2 hb.neat (Contour.edgeList_ne_nil hb.ne_nil) boxB.le_maxX boxA.le_maxX
  refine ⟨r, ?_, h⟩
  rw [← hr]
  unfold region.toOrientedSegments
  rw [hlb, min_comm]
  rfl

/-- C33: `contour_in_region` always answers for a simple contour and a region bounded by a simple
contour, and the answer is the relation of the contour to the interior, the boundary and the exterior. -/
theorem C33_contour_in_region {context : Context K} (hc : context.Exact) {a : Contour K}
    {b : Region K} (ha : a.Simple) (hb : b.Simple) :
    ∃ r, planar.contourInRegion a b context = .ok r ∧
      LinearCompoundRel a.pts b.interior b.pts b.exterior r := by
  unfold planar.contourInRegion region.relateContour region.relateContourBoxed
  have boxA := hc.contourBox a ha.ne_nil
  have boxB := hc.contourBox b hb.ne_nil
  simp only
  by_cases h : box.disjointWith (context.contourBox a) (context.contourBox b) = true
  · refine ⟨.disjoint, by simp [h, pure, Except.pure], ?_⟩
    have := box.inter_empty boxA boxB.interior h
    intro x hx
    rw [Set.eq_empty_iff_forall_notMem] at this
    have hn := this x
    rcases Contour.cover (c := b) (p := x) fun hm => hn ⟨hx, .inr hm⟩ with h | h
    · exact absurd ⟨hx, .inl h⟩ hn
    · exact h
  rw [if_neg h]
  obtain ⟨t, he⟩ := contour.equal_ok hb.ne_nil ha.ne_nil context
  rw [he]
  cases t with
  | true =>
    have hsc : a.SameCycle b := ((C24_shortcut_iff hc ha).mp he).symm
    exact ⟨.component, rfl, hsc.pts.le⟩
  | false =>
    obtain ⟨lb, hlb, nb, ob⟩ := hb.oriented hc
    have na := (matches_edges a).ne ha.valid.1
    obtain ⟨m1, m2⟩ := marks_registered nb na
    have hf := ((Fresh.empty : (State.empty : State K).Fresh).register false nb).register true na
    obtain ⟨r, hr, h⟩ := Outline.linearCompound hc hf (T := a.edgeList) (.of_eq m1) (by
        rw [m2, map_marked_fst, ← toEdgesEndpoints_ofEndpoints, List.map_map]
        exact .of_eq rfl) ob ha.valid.2 hb.neat (Contour.edgeList_ne_nil hb.ne_nil)
        boxB.le_maxX boxA.le_maxX
    refine ⟨r, ?_, ?_⟩
    · rw [← hr]
      unfold region.toOrientedSegments
      rw [hlb, min_comm]
      rfl
    · rcases h with h | ⟨-, hsub, ⟨x, h1, h2⟩, -⟩
      · exact h
      · have := ha.pts_eq_of_subset hb hsub
        exact absurd (this ▸ h1 : x ∈ b.pts) h2.1

/-- C33: the answer of `contour_in_region` is determined by the relation to the interior, the boundary
and the exterior. -/
theorem C33_contour_in_region_iff {context : Context K} (hc : context.Exact) {a : Contour K}
    {b : Region K} (ha : a.Simple) (hb : b.Simple) (r : Relation) :
    planar.contourInRegion a b context = .ok r ↔
      LinearCompoundRel a.pts b.interior b.pts b.exterior r := by
  obtain ⟨r', hr, h⟩ := C33_contour_in_region hc ha hb
  rw [hr]
  constructor
  · intro e; cases e; exact h
  · intro h'
    rw [LinearCompoundRel.unique ha.exists_mem b.interior_pts b.interior_exterior b.exterior_pts h h']

/-- C34: unless the multisegment contains the whole boundary, the answer of `multisegment_in_region` is
determined by the relation to the interior, the boundary and the exterior. -/
theorem C34_multisegment_in_region_iff {context : Context K} (hc : context.Exact) {a : Multisegment K}
    {b : Region K} (ha : a.segments ≠ []) (va : SegmentsValid a.segments) (hb : b.Simple)
    (hn : ¬ b.pts ⊆ segsPts a.segments) (r : Relation) :
    planar.multisegmentInRegion a b context = .ok r ↔
      LinearCompoundRel (segsPts a.segments) b.interior b.pts b.exterior r := by
  obtain ⟨r', hr, h | ⟨-, h, -⟩⟩ := C34_multisegment_in_region hc ha va hb
  · rw [hr]
    constructor
    · intro e; cases e; exact h
    · intro h'
      obtain ⟨u, hu⟩ := List.exists_mem_of_ne_nil _ ha
      rw [LinearCompoundRel.unique (S := segsPts a.segments) ⟨u.start, u, hu, u.start_mem⟩
        b.interior_pts b.interior_exterior
        b.exterior_pts h h']
  · exact absurd h hn

/-! ### Concrete cases -/

/-- A triangle. -/
def exampleRegion : Region ℚ := ⟨[⟨0, 0⟩, ⟨4, 0⟩, ⟨0, 4⟩]⟩

theorem exampleRegion_simple : exampleRegion.Simple := Contour.simple_of_check (by decide +kernel)

/-- The cases of the answers of `region_in_region` with the triangle. -/
theorem C32_examples :
    CompoundRel (⟨[⟨1, 1⟩, ⟨2, 1⟩, ⟨1, 2⟩]⟩ : Contour ℚ).interior
      (⟨[⟨1, 1⟩, ⟨2, 1⟩, ⟨1, 2⟩]⟩ : Contour ℚ).pts (⟨[⟨1, 1⟩, ⟨2, 1⟩, ⟨1, 2⟩]⟩ : Contour ℚ).exterior
      exampleRegion.interior exampleRegion.pts exampleRegion.exterior .within ∧
    CompoundRel (⟨[⟨0, 1⟩, ⟨2, 1⟩, ⟨1, 2⟩]⟩ : Contour ℚ).interior
      (⟨[⟨0, 1⟩, ⟨2, 1⟩, ⟨1, 2⟩]⟩ : Contour ℚ).pts (⟨[⟨0, 1⟩, ⟨2, 1⟩, ⟨1, 2⟩]⟩ : Contour ℚ).exterior
      exampleRegion.interior exampleRegion.pts exampleRegion.exterior .enclosed ∧
    CompoundRel (⟨[⟨0, 1⟩, ⟨2, 1⟩, ⟨1, 5⟩]⟩ : Contour ℚ).interior
      (⟨[⟨0, 1⟩, ⟨2, 1⟩, ⟨1, 5⟩]⟩ : Contour ℚ).pts (⟨[⟨0, 1⟩, ⟨2, 1⟩, ⟨1, 5⟩]⟩ : Contour ℚ).exterior
      exampleRegion.interior exampleRegion.pts exampleRegion.exterior .overlap ∧
    CompoundRel (⟨[⟨4, 0⟩, ⟨5, 1⟩, ⟨4, 5⟩]⟩ : Contour ℚ).interior
      (⟨[⟨4, 0⟩, ⟨5, 1⟩, ⟨4, 5⟩]⟩ : Contour ℚ).pts (⟨[⟨4, 0⟩, ⟨5, 1⟩, ⟨4, 5⟩]⟩ : Contour ℚ).exterior
      exampleRegion.interior exampleRegion.pts exampleRegion.exterior .touch :=
  ⟨(C32_region_in_region_iff reference.context_exact (Contour.simple_of_check (by decide +kernel))
      exampleRegion_simple _).mp (by decide +kernel),
    (C32_region_in_region_iff reference.context_exact (Contour.simple_of_check (by decide +kernel))
      exampleRegion_simple _).mp (by decide +kernel),
    (C32_region_in_region_iff reference.context_exact (Contour.simple_of_check (by decide +kernel))
      exampleRegion_simple _).mp (by decide +kernel),
    (C32_region_in_region_iff reference.context_exact (Contour.simple_of_check (by decide +kernel))
      exampleRegion_simple _).mp (by decide +kernel)⟩

/-- A contour which crosses the triangle. -/
theorem C33_example :
    LinearCompoundRel (⟨[⟨0, 1⟩, ⟨2, 1⟩, ⟨1, 5⟩]⟩ : Contour ℚ).pts exampleRegion.interior
      exampleRegion.pts exampleRegion.exterior .cross :=
  (C33_contour_in_region_iff reference.context_exact (Contour.simple_of_check (by decide +kernel))
    exampleRegion_simple _).mp (by decide +kernel)

/-- A multisegment which crosses the triangle. -/
theorem C34_example :
    LinearCompoundRel (segsPts [⟨⟨1, 1⟩, ⟨4, 1⟩⟩, ⟨⟨0, 0⟩, ⟨0, 4⟩⟩]) exampleRegion.interior
      exampleRegion.pts exampleRegion.exterior .cross := by
  have h : ¬ exampleRegion.pts ⊆ segsPts [⟨⟨1, 1⟩, ⟨4, 1⟩⟩, ⟨⟨0, 0⟩, ⟨0, 4⟩⟩] := by
    intro h
    obtain ⟨u, hu, h1⟩ := h (a := ⟨2, 0⟩) ⟨⟨⟨0, 0⟩, ⟨4, 0⟩⟩, by decide +kernel, by
      rw [Segment.mem_pts_iff]; constructor <;> decide +kernel⟩
    simp only [List.mem_cons, List.not_mem_nil, or_false] at hu
    rw [Segment.mem_pts_iff] at h1
    rcases hu with rfl | rfl
    · exact absurd h1.1 (by decide +kernel)
    · exact absurd h1.1 (by decide +kernel)
  exact (C34_multisegment_in_region_iff reference.context_exact
    (a := ⟨[⟨⟨1, 1⟩, ⟨4, 1⟩⟩, ⟨⟨0, 0⟩, ⟨0, 4⟩⟩]⟩) (by simp) (segmentsValid_of_check (by decide +kernel))
    exampleRegion_simple h _).mp (by decide +kernel)

/-- The boundary of the triangle, a segment inside and a segment outside. -/
def exampleMultisegment : Multisegment ℚ :=
  ⟨[⟨⟨0, 0⟩, ⟨4, 0⟩⟩, ⟨⟨4, 0⟩, ⟨0, 4⟩⟩, ⟨⟨0, 4⟩, ⟨0, 0⟩⟩, ⟨⟨1, 1⟩, ⟨2, 1⟩⟩, ⟨⟨3, 2⟩, ⟨4, 2⟩⟩]⟩

/-- C34: the exception is real, a valid multisegment with inner and outer points is answered `TOUCH`. -/
theorem C34_counterexample :
    SegmentsValid exampleMultisegment.segments ∧ exampleRegion.Simple ∧
      planar.multisegmentInRegion exampleMultisegment exampleRegion (reference.context : Context ℚ)
        = .ok .touch ∧
      LinearCompoundRel (segsPts exampleMultisegment.segments) exampleRegion.interior exampleRegion.pts
        exampleRegion.exterior .cross := by
  refine ⟨segmentsValid_of_check (by decide +kernel), exampleRegion_simple, by decide +kernel, ?_, ?_⟩
  · exact ⟨⟨1, 1⟩, ⟨⟨⟨1, 1⟩, ⟨2, 1⟩⟩, by decide +kernel, Segment.start_mem _⟩,
      (C10_point_in_region_unique reference.context_exact ⟨1, 1⟩ exampleRegion .interior).mp
        (by decide +kernel)⟩
  · exact ⟨⟨4, 2⟩, ⟨⟨⟨3, 2⟩, ⟨4, 2⟩⟩, by decide +kernel, Segment.finish_mem _⟩,
      (C10_point_in_region_unique reference.context_exact ⟨4, 2⟩ exampleRegion .exterior).mp
        (by decide +kernel)⟩

end Orient.Props
