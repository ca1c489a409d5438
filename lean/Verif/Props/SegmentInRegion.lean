import Verif.Spec.Compound
import Verif.Props.PointInRegion
import Verif.Lemmas.SimpleCheck
import Verif.Lemmas.Reference
import Mathlib.Algebra.Field.Rat
import Mathlib.Algebra.Order.Ring.Rat

/-! C13: `segment_in_region`. -/

set_option linter.unusedSectionVars false

namespace Orient.Props

/-- The relation of a segment to the region bounded by a contour. -/
def SegmentRegionRel {K : Type} [Field K] [LinearOrder K] (s : Segment K) (c : Contour K) :
    Relation → Prop := LinearCompoundRel s.pts c.interior c.pts c.exterior

theorem mem_interior {c : Contour ℚ} {p : Point ℚ}
    (h : planar.pointInRegion p c reference.context = .interior) : p ∈ c.interior :=
  (C10_point_in_region_unique reference.context_exact p c _).mp h

theorem mem_exterior {c : Contour ℚ} {p : Point ℚ}
    (h : planar.pointInRegion p c reference.context = .exterior) : p ∈ c.exterior :=
  (C10_point_in_region_unique reference.context_exact p c _).mp h

/-- C13 fails: a segment which runs along an edge of a simple contour and goes from the interior to
the exterior is said to be `ENCLOSED`, and the same segment reversed is said to `TOUCH`; in fact it
meets both the interior and the exterior, so the relation is `CROSS`.  (The check of the code for
crossings at vertices looks only at consecutive touched edges.) -/
theorem C13_counterexample_overlap :
    ∃ (c : Contour ℚ) (s : Segment ℚ), c.Simple ∧ s.Nondegenerate ∧
      SegmentRegionRel s c .cross ∧
      planar.segmentInRegion s c reference.context = .ok .enclosed ∧
      planar.segmentInRegion s.reverse c reference.context = .ok .touch := by
  refine ⟨⟨[⟨0, 0⟩, ⟨4, 0⟩, ⟨4, 2⟩, ⟨2, 2⟩, ⟨2, 4⟩, ⟨0, 4⟩]⟩, ⟨⟨1, 2⟩, ⟨5, 2⟩⟩,
    Contour.simple_of_check (by decide +kernel), by unfold Segment.Nondegenerate; decide +kernel,
    ⟨⟨⟨1, 2⟩, Segment.start_mem _, mem_interior (by decide +kernel)⟩,
      ⟨⟨5, 2⟩, Segment.finish_mem _, mem_exterior (by decide +kernel)⟩⟩,
    by decide +kernel, by decide +kernel⟩

/-- C13 fails: a diagonal of a simple contour which lies outside of it is said to be `ENCLOSED`
although it has a point in the exterior. -/
theorem C13_counterexample_outer_diagonal :
    ∃ (c : Contour ℚ) (s : Segment ℚ), c.Simple ∧ s.Nondegenerate ∧ (s.pts ∩ c.exterior).Nonempty ∧
      planar.segmentInRegion s c reference.context = .ok .enclosed := by
  refine ⟨⟨[⟨2, 2⟩, ⟨4, 2⟩, ⟨3, 0⟩, ⟨0, 0⟩, ⟨1, 4⟩]⟩, ⟨⟨4, 2⟩, ⟨1, 4⟩⟩,
    Contour.simple_of_check (by decide +kernel), by unfold Segment.Nondegenerate; decide +kernel,
    ⟨⟨5/2, 3⟩, ⟨1/2, by decide +kernel, by decide +kernel, by decide +kernel⟩,
      mem_exterior (by decide +kernel)⟩, by decide +kernel⟩

/-- C13 fails: a diagonal of a simple contour which lies inside of it is said to `TOUCH` although it
has a point in the interior. -/
theorem C13_counterexample_inner_diagonal :
    ∃ (c : Contour ℚ) (s : Segment ℚ), c.Simple ∧ s.Nondegenerate ∧ (s.pts ∩ c.interior).Nonempty ∧
      planar.segmentInRegion s c reference.context = .ok .touch := by
  refine ⟨⟨[⟨3, 0⟩, ⟨1, 0⟩, ⟨1, 3⟩, ⟨4, 4⟩, ⟨3, 1⟩]⟩, ⟨⟨3, 0⟩, ⟨1, 2⟩⟩,
    Contour.simple_of_check (by decide +kernel), by unfold Segment.Nondegenerate; decide +kernel,
    ⟨⟨2, 1⟩, ⟨1/2, by decide +kernel, by decide +kernel, by decide +kernel⟩,
      mem_interior (by decide +kernel)⟩, by decide +kernel⟩

end Orient.Props
