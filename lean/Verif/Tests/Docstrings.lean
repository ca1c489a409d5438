import Verif.Model.Planar
import Verif.Spec.Reference
import Mathlib.Algebra.Field.Rat
import Mathlib.Algebra.Order.Ring.Rat

/-!
Tests, not proofs: every example of the docstrings of `/repo/orient/planar.py`, run on the model over
the rational numbers with the reference context.
-/

namespace Orient.Tests.Docstrings

open Orient

/-- Shorthand for points with integer coordinates. -/
abbrev pt (x y : Int) : Point ℚ := ⟨x, y⟩
/-- Shorthand for segments. -/
abbrev sg (a b : Point ℚ) : Segment ℚ := ⟨a, b⟩
/-- Shorthand for contours. -/
abbrev ct (l : List (Point ℚ)) : Contour ℚ := ⟨l⟩
/-- Shorthand for polygons. -/
abbrev pg (b : Contour ℚ) (h : List (Contour ℚ)) : Polygon ℚ := ⟨b, h⟩
/-- The reference context over the rational numbers. -/
abbrev cx : Context ℚ := reference.context

/-- Comparison of outcomes. -/
def gives (r : Py Relation) (e : Relation) : Bool :=
  match r with
  | .ok x => decide (x = e)
  | .error _ => false

/-! `point_in_segment`, `/repo/orient/planar.py:25-59` -/

#guard decide (planar.pointInSegment (pt 0 0) (sg (pt 0 0) (pt 2 0)) cx = .boundary)
#guard decide (planar.pointInSegment (pt 1 0) (sg (pt 0 0) (pt 2 0)) cx = .boundary)
#guard decide (planar.pointInSegment (pt 2 0) (sg (pt 0 0) (pt 2 0)) cx = .boundary)
#guard decide (planar.pointInSegment (pt 3 0) (sg (pt 0 0) (pt 2 0)) cx = .exterior)
#guard decide (planar.pointInSegment (pt 0 1) (sg (pt 0 0) (pt 2 0)) cx = .exterior)

/-! `segment_in_segment`, `/repo/orient/planar.py:62-107` -/

#guard decide (planar.segmentInSegment (sg (pt 0 0) (pt 0 2)) (sg (pt 0 0) (pt 2 0)) cx = .touch)
#guard decide (planar.segmentInSegment (sg (pt 0 0) (pt 1 0)) (sg (pt 0 0) (pt 2 0)) cx = .component)
#guard decide (planar.segmentInSegment (sg (pt 0 0) (pt 2 0)) (sg (pt 0 0) (pt 2 0)) cx = .equal)
#guard decide (planar.segmentInSegment (sg (pt 0 0) (pt 3 0)) (sg (pt 0 0) (pt 2 0)) cx = .composite)
#guard decide (planar.segmentInSegment (sg (pt 1 0) (pt 3 0)) (sg (pt 0 0) (pt 2 0)) cx = .overlap)
#guard decide (planar.segmentInSegment (sg (pt 2 0) (pt 3 0)) (sg (pt 0 0) (pt 2 0)) cx = .touch)
#guard decide (planar.segmentInSegment (sg (pt 3 0) (pt 4 0)) (sg (pt 0 0) (pt 2 0)) cx = .disjoint)

/-! `point_in_multisegment`, `/repo/orient/planar.py:110-149` -/

#guard decide (planar.pointInMultisegment (pt 0 0) ⟨[(sg (pt 0 0) (pt 1 0)), (sg (pt 3 0) (pt 5 0))]⟩ cx = .boundary)
#guard decide (planar.pointInMultisegment (pt 0 1) ⟨[(sg (pt 0 0) (pt 1 0)), (sg (pt 3 0) (pt 5 0))]⟩ cx = .exterior)
#guard decide (planar.pointInMultisegment (pt 1 0) ⟨[(sg (pt 0 0) (pt 1 0)), (sg (pt 3 0) (pt 5 0))]⟩ cx = .boundary)
#guard decide (planar.pointInMultisegment (pt 2 0) ⟨[(sg (pt 0 0) (pt 1 0)), (sg (pt 3 0) (pt 5 0))]⟩ cx = .exterior)
#guard decide (planar.pointInMultisegment (pt 3 0) ⟨[(sg (pt 0 0) (pt 1 0)), (sg (pt 3 0) (pt 5 0))]⟩ cx = .boundary)
#guard decide (planar.pointInMultisegment (pt 4 0) ⟨[(sg (pt 0 0) (pt 1 0)), (sg (pt 3 0) (pt 5 0))]⟩ cx = .boundary)

/-! `segment_in_multisegment`, `/repo/orient/planar.py:152-203` -/

#guard decide (planar.segmentInMultisegment (sg (pt 0 0) (pt 1 0)) ⟨[(sg (pt 0 0) (pt 1 1)), (sg (pt 1 1) (pt 3 3))]⟩ cx = .touch)
#guard decide (planar.segmentInMultisegment (sg (pt 0 0) (pt 0 1)) ⟨[(sg (pt 0 0) (pt 1 1)), (sg (pt 1 1) (pt 3 3))]⟩ cx = .touch)
#guard decide (planar.segmentInMultisegment (sg (pt 0 1) (pt 1 0)) ⟨[(sg (pt 0 0) (pt 1 1)), (sg (pt 1 1) (pt 3 3))]⟩ cx = .cross)
#guard decide (planar.segmentInMultisegment (sg (pt 0 0) (pt 1 1)) ⟨[(sg (pt 0 0) (pt 1 1)), (sg (pt 1 1) (pt 3 3))]⟩ cx = .component)
#guard decide (planar.segmentInMultisegment (sg (pt 0 0) (pt 3 3)) ⟨[(sg (pt 0 0) (pt 1 1)), (sg (pt 1 1) (pt 3 3))]⟩ cx = .equal)
#guard decide (planar.segmentInMultisegment (sg (pt 2 2) (pt 4 4)) ⟨[(sg (pt 0 0) (pt 1 1)), (sg (pt 1 1) (pt 3 3))]⟩ cx = .overlap)
#guard decide (planar.segmentInMultisegment (sg (pt 4 4) (pt 5 5)) ⟨[(sg (pt 0 0) (pt 1 1)), (sg (pt 1 1) (pt 3 3))]⟩ cx = .disjoint)

/-! `multisegment_in_multisegment`, `/repo/orient/planar.py:206-277` -/

#guard gives (planar.multisegmentInMultisegment ⟨[(sg (pt 1 1) (pt 3 1)), (sg (pt 1 3) (pt 1 1)), (sg (pt 3 1) (pt 3 3)), (sg (pt 1 3) (pt 3 3))]⟩ ⟨[(sg (pt 0 0) (pt 4 0)), (sg (pt 0 0) (pt 0 4)), (sg (pt 4 0) (pt 4 4)), (sg (pt 0 4) (pt 4 4))]⟩ cx) .disjoint
#guard gives (planar.multisegmentInMultisegment ⟨[(sg (pt 0 0) (pt 2 2)), (sg (pt 2 2) (pt 4 0)), (sg (pt 2 2) (pt 4 4)), (sg (pt 0 4) (pt 2 2))]⟩ ⟨[(sg (pt 0 0) (pt 4 0)), (sg (pt 0 0) (pt 0 4)), (sg (pt 4 0) (pt 4 4)), (sg (pt 0 4) (pt 4 4))]⟩ cx) .touch
#guard gives (planar.multisegmentInMultisegment ⟨[(sg (pt 0 0) (pt 2 2)), (sg (pt 2 2) (pt 4 0)), (sg (pt 2 2) (pt 4 4)), (sg (pt 0 4) (pt 2 2))]⟩ ⟨[(sg (pt 1 1) (pt 3 1)), (sg (pt 1 3) (pt 1 1)), (sg (pt 3 1) (pt 3 3)), (sg (pt 1 3) (pt 3 3))]⟩ cx) .cross
#guard gives (planar.multisegmentInMultisegment ⟨[(sg (pt 1 1) (pt 3 1)), (sg (pt 1 3) (pt 1 1)), (sg (pt 3 1) (pt 3 3)), (sg (pt 1 3) (pt 3 3)), (sg (pt 0 0) (pt 4 0))]⟩ ⟨[(sg (pt 0 0) (pt 4 0)), (sg (pt 0 0) (pt 0 4)), (sg (pt 4 0) (pt 4 4)), (sg (pt 0 4) (pt 4 4))]⟩ cx) .overlap
#guard gives (planar.multisegmentInMultisegment ⟨[(sg (pt 0 0) (pt 4 0)), (sg (pt 0 0) (pt 0 4)), (sg (pt 4 0) (pt 4 4)), (sg (pt 0 4) (pt 4 4)), (sg (pt 1 1) (pt 3 1)), (sg (pt 1 3) (pt 1 1)), (sg (pt 3 1) (pt 3 3)), (sg (pt 1 3) (pt 3 3))]⟩ ⟨[(sg (pt 0 0) (pt 4 0)), (sg (pt 0 0) (pt 0 4)), (sg (pt 4 0) (pt 4 4)), (sg (pt 0 4) (pt 4 4))]⟩ cx) .composite
#guard gives (planar.multisegmentInMultisegment ⟨[(sg (pt 0 0) (pt 4 0)), (sg (pt 0 0) (pt 0 4)), (sg (pt 4 0) (pt 4 4)), (sg (pt 0 4) (pt 4 4))]⟩ ⟨[(sg (pt 0 0) (pt 4 0)), (sg (pt 0 0) (pt 0 4)), (sg (pt 4 0) (pt 4 4)), (sg (pt 0 4) (pt 4 4))]⟩ cx) .equal
#guard gives (planar.multisegmentInMultisegment ⟨[(sg (pt 0 0) (pt 4 0)), (sg (pt 0 0) (pt 0 4)), (sg (pt 4 0) (pt 4 4)), (sg (pt 0 4) (pt 4 4))]⟩ ⟨[(sg (pt 0 0) (pt 4 0)), (sg (pt 0 0) (pt 0 4)), (sg (pt 4 0) (pt 4 4)), (sg (pt 0 4) (pt 4 4)), (sg (pt 1 1) (pt 3 1)), (sg (pt 1 3) (pt 1 1)), (sg (pt 3 1) (pt 3 3)), (sg (pt 1 3) (pt 3 3))]⟩ cx) .component

/-! `point_in_contour`, `/repo/orient/planar.py:280-312` -/

#guard decide (planar.pointInContour (pt 0 0) (ct [(pt 0 0), (pt 2 0), (pt 2 2), (pt 0 2)]) cx = .boundary)
#guard decide (planar.pointInContour (pt 1 1) (ct [(pt 0 0), (pt 2 0), (pt 2 2), (pt 0 2)]) cx = .exterior)
#guard decide (planar.pointInContour (pt 2 2) (ct [(pt 0 0), (pt 2 0), (pt 2 2), (pt 0 2)]) cx = .boundary)
#guard decide (planar.pointInContour (pt 3 3) (ct [(pt 0 0), (pt 2 0), (pt 2 2), (pt 0 2)]) cx = .exterior)

/-! `segment_in_contour`, `/repo/orient/planar.py:315-364` -/

#guard gives (planar.segmentInContour (sg (pt 0 0) (pt 1 0)) (ct [(pt 0 0), (pt 3 0), (pt 3 3), (pt 0 3)]) cx) .component
#guard gives (planar.segmentInContour (sg (pt 0 0) (pt 3 0)) (ct [(pt 0 0), (pt 3 0), (pt 3 3), (pt 0 3)]) cx) .component
#guard gives (planar.segmentInContour (sg (pt 2 0) (pt 4 0)) (ct [(pt 0 0), (pt 3 0), (pt 3 3), (pt 0 3)]) cx) .overlap
#guard gives (planar.segmentInContour (sg (pt 4 0) (pt 5 0)) (ct [(pt 0 0), (pt 3 0), (pt 3 3), (pt 0 3)]) cx) .disjoint
#guard gives (planar.segmentInContour (sg (pt 1 0) (pt 1 2)) (ct [(pt 0 0), (pt 3 0), (pt 3 3), (pt 0 3)]) cx) .touch
#guard gives (planar.segmentInContour (sg (pt 0 0) (pt 1 1)) (ct [(pt 0 0), (pt 3 0), (pt 3 3), (pt 0 3)]) cx) .touch
#guard gives (planar.segmentInContour (sg (pt 1 1) (pt 2 2)) (ct [(pt 0 0), (pt 3 0), (pt 3 3), (pt 0 3)]) cx) .disjoint
#guard gives (planar.segmentInContour (sg (pt 2 2) (pt 4 4)) (ct [(pt 0 0), (pt 3 0), (pt 3 3), (pt 0 3)]) cx) .cross

/-! `multisegment_in_contour`, `/repo/orient/planar.py:367-434` -/

#guard gives (planar.multisegmentInContour ⟨[(sg (pt 1 1) (pt 3 1)), (sg (pt 1 3) (pt 1 1)), (sg (pt 3 1) (pt 3 3)), (sg (pt 1 3) (pt 3 3))]⟩ (ct [(pt 0 0), (pt 4 0), (pt 4 4), (pt 0 4)]) cx) .disjoint
#guard gives (planar.multisegmentInContour ⟨[(sg (pt 0 0) (pt 2 2)), (sg (pt 2 2) (pt 4 0)), (sg (pt 2 2) (pt 4 4)), (sg (pt 0 4) (pt 2 2))]⟩ (ct [(pt 0 0), (pt 4 0), (pt 4 4), (pt 0 4)]) cx) .touch
#guard gives (planar.multisegmentInContour ⟨[(sg (pt 0 0) (pt 2 2)), (sg (pt 2 2) (pt 4 0)), (sg (pt 2 2) (pt 4 4)), (sg (pt 0 4) (pt 2 2))]⟩ (ct [(pt 1 1), (pt 3 1), (pt 3 3), (pt 1 3)]) cx) .cross
#guard gives (planar.multisegmentInContour ⟨[(sg (pt 0 0) (pt 2 2)), (sg (pt 2 2) (pt 4 0)), (sg (pt 2 2) (pt 4 4)), (sg (pt 0 4) (pt 2 2)), (sg (pt 0 0) (pt 4 0))]⟩ (ct [(pt 0 0), (pt 4 0), (pt 4 4), (pt 0 4)]) cx) .overlap
#guard gives (planar.multisegmentInContour ⟨[(sg (pt 0 0) (pt 2 2)), (sg (pt 2 2) (pt 4 0)), (sg (pt 2 2) (pt 4 4)), (sg (pt 0 4) (pt 2 2)), (sg (pt 0 0) (pt 4 0)), (sg (pt 0 0) (pt 0 4)), (sg (pt 4 0) (pt 4 4)), (sg (pt 0 4) (pt 4 4))]⟩ (ct [(pt 0 0), (pt 4 0), (pt 4 4), (pt 0 4)]) cx) .composite
#guard gives (planar.multisegmentInContour ⟨[(sg (pt 0 0) (pt 4 0)), (sg (pt 0 0) (pt 0 4)), (sg (pt 4 0) (pt 4 4)), (sg (pt 0 4) (pt 4 4))]⟩ (ct [(pt 0 0), (pt 4 0), (pt 4 4), (pt 0 4)]) cx) .equal
#guard gives (planar.multisegmentInContour ⟨[(sg (pt 0 0) (pt 0 4)), (sg (pt 4 0) (pt 4 4)), (sg (pt 0 4) (pt 4 4))]⟩ (ct [(pt 0 0), (pt 4 0), (pt 4 4), (pt 0 4)]) cx) .component

/-! `contour_in_contour`, `/repo/orient/planar.py:437-472` -/

#guard gives (planar.contourInContour (ct [(pt 0 0), (pt 1 0), (pt 0 1)]) (ct [(pt 0 0), (pt 1 0), (pt 0 1)]) cx) .equal
#guard gives (planar.contourInContour (ct [(pt 0 0), (pt 1 0), (pt 0 1)]) (ct [(pt 0 0), (pt 1 0), (pt 1 1), (pt 0 1)]) cx) .overlap
#guard gives (planar.contourInContour (ct [(pt 0 0), (pt 1 0), (pt 1 1), (pt 0 1)]) (ct [(pt 0 0), (pt 1 0), (pt 0 1)]) cx) .overlap
#guard gives (planar.contourInContour (ct [(pt 0 0), (pt 1 0), (pt 1 1), (pt 0 1)]) (ct [(pt 0 0), (pt 1 0), (pt 1 1), (pt 0 1)]) cx) .equal

/-! `point_in_region`, `/repo/orient/planar.py:475-510` -/

#guard decide (planar.pointInRegion (pt 0 0) (ct [(pt 0 0), (pt 2 0), (pt 2 2), (pt 0 2)]) cx = .boundary)
#guard decide (planar.pointInRegion (pt 1 1) (ct [(pt 0 0), (pt 2 0), (pt 2 2), (pt 0 2)]) cx = .interior)
#guard decide (planar.pointInRegion (pt 2 2) (ct [(pt 0 0), (pt 2 0), (pt 2 2), (pt 0 2)]) cx = .boundary)
#guard decide (planar.pointInRegion (pt 3 3) (ct [(pt 0 0), (pt 2 0), (pt 2 2), (pt 0 2)]) cx = .exterior)

/-! `segment_in_region`, `/repo/orient/planar.py:513-562` -/

#guard gives (planar.segmentInRegion (sg (pt 0 0) (pt 1 0)) (ct [(pt 0 0), (pt 3 0), (pt 3 3), (pt 0 3)]) cx) .component
#guard gives (planar.segmentInRegion (sg (pt 0 0) (pt 3 0)) (ct [(pt 0 0), (pt 3 0), (pt 3 3), (pt 0 3)]) cx) .component
#guard gives (planar.segmentInRegion (sg (pt 2 0) (pt 4 0)) (ct [(pt 0 0), (pt 3 0), (pt 3 3), (pt 0 3)]) cx) .touch
#guard gives (planar.segmentInRegion (sg (pt 4 0) (pt 5 0)) (ct [(pt 0 0), (pt 3 0), (pt 3 3), (pt 0 3)]) cx) .disjoint
#guard gives (planar.segmentInRegion (sg (pt 1 0) (pt 1 2)) (ct [(pt 0 0), (pt 3 0), (pt 3 3), (pt 0 3)]) cx) .enclosed
#guard gives (planar.segmentInRegion (sg (pt 0 0) (pt 1 1)) (ct [(pt 0 0), (pt 3 0), (pt 3 3), (pt 0 3)]) cx) .enclosed
#guard gives (planar.segmentInRegion (sg (pt 1 1) (pt 2 2)) (ct [(pt 0 0), (pt 3 0), (pt 3 3), (pt 0 3)]) cx) .within
#guard gives (planar.segmentInRegion (sg (pt 2 2) (pt 4 4)) (ct [(pt 0 0), (pt 3 0), (pt 3 3), (pt 0 3)]) cx) .cross

/-! `multisegment_in_region`, `/repo/orient/planar.py:565-630` -/

#guard gives (planar.multisegmentInRegion ⟨[(sg (pt 0 0) (pt 4 0)), (sg (pt 0 0) (pt 0 4)), (sg (pt 4 0) (pt 4 4)), (sg (pt 0 4) (pt 4 4))]⟩ (ct [(pt 1 1), (pt 3 1), (pt 3 3), (pt 1 3)]) cx) .disjoint
#guard gives (planar.multisegmentInRegion ⟨[(sg (pt 0 0) (pt 4 0)), (sg (pt 0 0) (pt 0 4)), (sg (pt 4 0) (pt 4 4)), (sg (pt 0 4) (pt 4 4)), (sg (pt 1 1) (pt 3 1)), (sg (pt 1 3) (pt 1 1)), (sg (pt 3 1) (pt 3 3)), (sg (pt 1 3) (pt 3 3))]⟩ (ct [(pt 1 1), (pt 3 1), (pt 3 3), (pt 1 3)]) cx) .touch
#guard gives (planar.multisegmentInRegion ⟨[(sg (pt 0 0) (pt 2 2)), (sg (pt 2 2) (pt 4 0)), (sg (pt 2 2) (pt 4 4)), (sg (pt 0 4) (pt 2 2))]⟩ (ct [(pt 1 1), (pt 3 1), (pt 3 3), (pt 1 3)]) cx) .cross
#guard gives (planar.multisegmentInRegion ⟨[(sg (pt 0 0) (pt 4 0)), (sg (pt 0 0) (pt 0 4)), (sg (pt 4 0) (pt 4 4)), (sg (pt 0 4) (pt 4 4))]⟩ (ct [(pt 0 0), (pt 4 0), (pt 4 4), (pt 0 4)]) cx) .component
#guard gives (planar.multisegmentInRegion ⟨[(sg (pt 0 0) (pt 4 0)), (sg (pt 0 0) (pt 0 4)), (sg (pt 4 0) (pt 4 4)), (sg (pt 0 4) (pt 4 4)), (sg (pt 1 1) (pt 3 1)), (sg (pt 1 3) (pt 1 1)), (sg (pt 3 1) (pt 3 3)), (sg (pt 1 3) (pt 3 3))]⟩ (ct [(pt 0 0), (pt 4 0), (pt 4 4), (pt 0 4)]) cx) .enclosed
#guard gives (planar.multisegmentInRegion ⟨[(sg (pt 1 1) (pt 3 1)), (sg (pt 1 3) (pt 1 1)), (sg (pt 3 1) (pt 3 3)), (sg (pt 1 3) (pt 3 3))]⟩ (ct [(pt 0 0), (pt 4 0), (pt 4 4), (pt 0 4)]) cx) .within

/-! `contour_in_region`, `/repo/orient/planar.py:633-674` -/

#guard gives (planar.contourInRegion (ct [(pt 0 0), (pt 4 0), (pt 4 4), (pt 0 4)]) (ct [(pt 1 1), (pt 3 1), (pt 3 3), (pt 1 3)]) cx) .disjoint
#guard gives (planar.contourInRegion (ct [(pt 0 0), (pt 4 0), (pt 4 4), (pt 0 4)]) (ct [(pt 0 0), (pt 4 0), (pt 0 4)]) cx) .touch
#guard gives (planar.contourInRegion (ct [(pt 1 1), (pt 3 1), (pt 3 3), (pt 1 3)]) (ct [(pt 0 0), (pt 4 0), (pt 0 4)]) cx) .cross
#guard gives (planar.contourInRegion (ct [(pt 0 0), (pt 4 0), (pt 4 4), (pt 0 4)]) (ct [(pt 0 0), (pt 4 0), (pt 4 4), (pt 0 4)]) cx) .component
#guard gives (planar.contourInRegion (ct [(pt 0 0), (pt 4 0), (pt 0 4)]) (ct [(pt 0 0), (pt 4 0), (pt 4 4), (pt 0 4)]) cx) .enclosed
#guard gives (planar.contourInRegion (ct [(pt 1 1), (pt 3 1), (pt 3 3), (pt 1 3)]) (ct [(pt 0 0), (pt 4 0), (pt 4 4), (pt 0 4)]) cx) .within

/-! `region_in_region`, `/repo/orient/planar.py:677-725` -/

#guard gives (planar.regionInRegion (ct [(pt 1 1), (pt 3 1), (pt 3 3), (pt 1 3)]) (ct [(pt 4 0), (pt 8 0), (pt 8 4), (pt 4 4)]) cx) .disjoint
#guard gives (planar.regionInRegion (ct [(pt 0 0), (pt 4 0), (pt 4 4), (pt 0 4)]) (ct [(pt 4 0), (pt 8 0), (pt 8 4), (pt 4 4)]) cx) .touch
#guard gives (planar.regionInRegion (ct [(pt 1 1), (pt 3 1), (pt 3 3), (pt 1 3)]) (ct [(pt 0 0), (pt 4 0), (pt 0 4)]) cx) .overlap
#guard gives (planar.regionInRegion (ct [(pt 0 0), (pt 4 0), (pt 4 4), (pt 0 4)]) (ct [(pt 1 1), (pt 3 1), (pt 3 3), (pt 1 3)]) cx) .cover
#guard gives (planar.regionInRegion (ct [(pt 0 0), (pt 4 0), (pt 4 4), (pt 0 4)]) (ct [(pt 0 0), (pt 4 0), (pt 0 4)]) cx) .encloses
#guard gives (planar.regionInRegion (ct [(pt 0 0), (pt 4 0), (pt 4 4), (pt 0 4)]) (ct [(pt 0 0), (pt 4 0), (pt 4 4), (pt 0 4)]) cx) .equal
#guard gives (planar.regionInRegion (ct [(pt 0 0), (pt 4 0), (pt 0 4)]) (ct [(pt 0 0), (pt 4 0), (pt 4 4), (pt 0 4)]) cx) .enclosed
#guard gives (planar.regionInRegion (ct [(pt 1 1), (pt 3 1), (pt 3 3), (pt 1 3)]) (ct [(pt 0 0), (pt 4 0), (pt 4 4), (pt 0 4)]) cx) .within

/-! `point_in_multiregion`, `/repo/orient/planar.py:728-766` -/

#guard decide (planar.pointInMultiregion (pt 0 0) [(ct [(pt 0 0), (pt 2 0), (pt 0 2)])] cx = .boundary)
#guard decide (planar.pointInMultiregion (pt 0 0) [(ct [(pt 0 0), (pt 2 0), (pt 2 2), (pt 0 2)])] cx = .boundary)
#guard decide (planar.pointInMultiregion (pt 1 1) [(ct [(pt 0 0), (pt 2 0), (pt 0 2)])] cx = .boundary)
#guard decide (planar.pointInMultiregion (pt 1 1) [(ct [(pt 0 0), (pt 2 0), (pt 2 2), (pt 0 2)])] cx = .interior)
#guard decide (planar.pointInMultiregion (pt 2 2) [(ct [(pt 0 0), (pt 2 0), (pt 0 2)])] cx = .exterior)
#guard decide (planar.pointInMultiregion (pt 2 2) [(ct [(pt 0 0), (pt 2 0), (pt 2 2), (pt 0 2)])] cx = .boundary)

/-! `segment_in_multiregion`, `/repo/orient/planar.py:769-826` -/

#guard gives (planar.segmentInMultiregion (sg (pt 0 0) (pt 1 0)) [] cx) .disjoint
#guard gives (planar.segmentInMultiregion (sg (pt 0 0) (pt 1 0)) [(ct [(pt 0 0), (pt 3 0), (pt 3 3), (pt 0 3)])] cx) .component
#guard gives (planar.segmentInMultiregion (sg (pt 0 0) (pt 3 0)) [(ct [(pt 0 0), (pt 3 0), (pt 3 3), (pt 0 3)])] cx) .component
#guard gives (planar.segmentInMultiregion (sg (pt 2 0) (pt 4 0)) [(ct [(pt 0 0), (pt 3 0), (pt 3 3), (pt 0 3)])] cx) .touch
#guard gives (planar.segmentInMultiregion (sg (pt 4 0) (pt 5 0)) [(ct [(pt 0 0), (pt 3 0), (pt 3 3), (pt 0 3)])] cx) .disjoint
#guard gives (planar.segmentInMultiregion (sg (pt 1 0) (pt 1 2)) [(ct [(pt 0 0), (pt 3 0), (pt 3 3), (pt 0 3)])] cx) .enclosed
#guard gives (planar.segmentInMultiregion (sg (pt 0 0) (pt 1 1)) [(ct [(pt 0 0), (pt 3 0), (pt 3 3), (pt 0 3)])] cx) .enclosed
#guard gives (planar.segmentInMultiregion (sg (pt 1 1) (pt 2 2)) [(ct [(pt 0 0), (pt 3 0), (pt 3 3), (pt 0 3)])] cx) .within
#guard gives (planar.segmentInMultiregion (sg (pt 2 2) (pt 4 4)) [(ct [(pt 0 0), (pt 3 0), (pt 3 3), (pt 0 3)])] cx) .cross

/-! `multisegment_in_multiregion`, `/repo/orient/planar.py:829-901` -/

#guard gives (planar.multisegmentInMultiregion ⟨[(sg (pt 0 0) (pt 4 0)), (sg (pt 0 0) (pt 0 4)), (sg (pt 4 0) (pt 4 4)), (sg (pt 0 4) (pt 4 4))]⟩ [(ct [(pt 1 1), (pt 3 1), (pt 3 3), (pt 1 3)]), (ct [(pt 5 5), (pt 7 5), (pt 7 7), (pt 5 7)])] cx) .disjoint
#guard gives (planar.multisegmentInMultiregion ⟨[(sg (pt 0 0) (pt 4 0)), (sg (pt 0 0) (pt 0 4)), (sg (pt 4 0) (pt 4 4)), (sg (pt 0 4) (pt 4 4)), (sg (pt 1 1) (pt 3 1)), (sg (pt 1 3) (pt 1 1)), (sg (pt 3 1) (pt 3 3)), (sg (pt 1 3) (pt 3 3))]⟩ [(ct [(pt 1 1), (pt 3 1), (pt 3 3), (pt 1 3)]), (ct [(pt 5 5), (pt 7 5), (pt 7 7), (pt 5 7)])] cx) .touch
#guard gives (planar.multisegmentInMultiregion ⟨[(sg (pt 0 0) (pt 2 2)), (sg (pt 2 2) (pt 4 0)), (sg (pt 2 2) (pt 4 4)), (sg (pt 0 4) (pt 2 2))]⟩ [(ct [(pt 1 1), (pt 3 1), (pt 3 3), (pt 1 3)]), (ct [(pt 5 5), (pt 7 5), (pt 7 7), (pt 5 7)])] cx) .cross
#guard gives (planar.multisegmentInMultiregion ⟨[(sg (pt 0 0) (pt 4 0)), (sg (pt 0 0) (pt 0 4)), (sg (pt 4 0) (pt 4 4)), (sg (pt 0 4) (pt 4 4))]⟩ [(ct [(pt 0 0), (pt 4 0), (pt 4 4), (pt 0 4)]), (ct [(pt 4 4), (pt 8 4), (pt 8 8), (pt 4 8)])] cx) .component
#guard gives (planar.multisegmentInMultiregion ⟨[(sg (pt 1 1) (pt 3 1)), (sg (pt 1 3) (pt 1 1)), (sg (pt 3 1) (pt 3 3)), (sg (pt 1 3) (pt 3 3))]⟩ [(ct [(pt 0 0), (pt 4 0), (pt 4 4), (pt 0 4)]), (ct [(pt 4 4), (pt 8 4), (pt 8 8), (pt 4 8)])] cx) .within

/-! `contour_in_multiregion`, `/repo/orient/planar.py:904-963` -/

#guard gives (planar.contourInMultiregion (ct [(pt 0 0), (pt 4 0), (pt 4 4), (pt 0 4)]) [(ct [(pt 1 1), (pt 3 1), (pt 3 3), (pt 1 3)]), (ct [(pt 5 1), (pt 7 1), (pt 7 3), (pt 5 3)])] cx) .disjoint
#guard gives (planar.contourInMultiregion (ct [(pt 4 0), (pt 8 0), (pt 8 4), (pt 4 4)]) [(ct [(pt 0 0), (pt 4 0), (pt 4 4), (pt 0 4)]), (ct [(pt 4 4), (pt 8 4), (pt 8 8), (pt 4 8)])] cx) .touch
#guard gives (planar.contourInMultiregion (ct [(pt 1 1), (pt 3 1), (pt 3 3), (pt 1 3)]) [(ct [(pt 0 0), (pt 4 0), (pt 0 4)]), (ct [(pt 4 0), (pt 8 0), (pt 8 4), (pt 4 4)])] cx) .cross
#guard gives (planar.contourInMultiregion (ct [(pt 0 0), (pt 4 0), (pt 4 4), (pt 0 4)]) [(ct [(pt 0 0), (pt 4 0), (pt 4 4), (pt 0 4)]), (ct [(pt 4 4), (pt 8 4), (pt 8 8), (pt 4 8)])] cx) .component
#guard gives (planar.contourInMultiregion (ct [(pt 0 0), (pt 4 0), (pt 0 4)]) [(ct [(pt 0 0), (pt 4 0), (pt 4 4), (pt 0 4)]), (ct [(pt 4 4), (pt 8 4), (pt 8 8), (pt 4 8)])] cx) .enclosed
#guard gives (planar.contourInMultiregion (ct [(pt 1 1), (pt 3 1), (pt 3 3), (pt 1 3)]) [(ct [(pt 0 0), (pt 4 0), (pt 4 4), (pt 0 4)]), (ct [(pt 4 4), (pt 8 4), (pt 8 8), (pt 4 8)])] cx) .within

/-! `region_in_multiregion`, `/repo/orient/planar.py:966-1031` -/

#guard gives (planar.regionInMultiregion (ct [(pt 4 4), (pt 8 4), (pt 8 8), (pt 4 8)]) [(ct [(pt 1 1), (pt 3 1), (pt 3 3), (pt 1 3)]), (ct [(pt 5 1), (pt 7 1), (pt 7 3), (pt 5 3)])] cx) .disjoint
#guard gives (planar.regionInMultiregion (ct [(pt 4 0), (pt 8 0), (pt 8 4), (pt 4 4)]) [(ct [(pt 0 0), (pt 4 0), (pt 4 4), (pt 0 4)]), (ct [(pt 4 4), (pt 8 4), (pt 8 8), (pt 4 8)])] cx) .touch
#guard gives (planar.regionInMultiregion (ct [(pt 0 0), (pt 4 0), (pt 4 4), (pt 0 4)]) [(ct [(pt 1 1), (pt 3 1), (pt 3 3), (pt 1 3)]), (ct [(pt 5 1), (pt 7 1), (pt 7 3), (pt 5 3)])] cx) .overlap
#guard gives (planar.regionInMultiregion (ct [(pt 0 0), (pt 8 0), (pt 8 8), (pt 0 8)]) [(ct [(pt 1 1), (pt 3 1), (pt 3 3), (pt 1 3)]), (ct [(pt 5 1), (pt 7 1), (pt 7 3), (pt 5 3)])] cx) .cover
#guard gives (planar.regionInMultiregion (ct [(pt 0 0), (pt 8 0), (pt 8 8), (pt 0 8)]) [(ct [(pt 0 0), (pt 4 0), (pt 4 4), (pt 0 4)]), (ct [(pt 4 4), (pt 8 4), (pt 8 8), (pt 4 8)])] cx) .encloses
#guard gives (planar.regionInMultiregion (ct [(pt 0 0), (pt 4 0), (pt 0 4)]) [(ct [(pt 0 0), (pt 4 0), (pt 4 4), (pt 0 4)]), (ct [(pt 4 4), (pt 8 4), (pt 8 8), (pt 4 8)])] cx) .enclosed
#guard gives (planar.regionInMultiregion (ct [(pt 1 1), (pt 3 1), (pt 3 3), (pt 1 3)]) [(ct [(pt 0 0), (pt 4 0), (pt 4 4), (pt 0 4)]), (ct [(pt 4 4), (pt 8 4), (pt 8 8), (pt 4 8)])] cx) .within

/-! `multiregion_in_multiregion`, `/repo/orient/planar.py:1034-1118` -/

#guard gives (planar.multiregionInMultiregion [(ct [(pt 1 1), (pt 3 1), (pt 3 3), (pt 1 3)]), (ct [(pt 5 5), (pt 7 5), (pt 7 7), (pt 5 7)])] [(ct [(pt 4 0), (pt 8 0), (pt 8 4), (pt 4 4)]), (ct [(pt 0 4), (pt 4 4), (pt 4 8), (pt 0 8)])] cx) .disjoint
#guard gives (planar.multiregionInMultiregion [(ct [(pt 0 0), (pt 4 0), (pt 4 4), (pt 0 4)]), (ct [(pt 4 4), (pt 8 4), (pt 8 8), (pt 4 8)])] [(ct [(pt 4 0), (pt 8 0), (pt 8 4), (pt 4 4)]), (ct [(pt 0 4), (pt 4 4), (pt 4 8), (pt 0 8)])] cx) .touch
#guard gives (planar.multiregionInMultiregion [(ct [(pt 0 0), (pt 4 0), (pt 4 4), (pt 0 4)]), (ct [(pt 5 5), (pt 7 5), (pt 7 7), (pt 5 7)])] [(ct [(pt 1 1), (pt 3 1), (pt 3 3), (pt 1 3)]), (ct [(pt 4 4), (pt 8 4), (pt 8 8), (pt 4 8)])] cx) .overlap
#guard gives (planar.multiregionInMultiregion [(ct [(pt 0 0), (pt 4 0), (pt 4 4), (pt 0 4)]), (ct [(pt 4 4), (pt 8 4), (pt 8 8), (pt 4 8)])] [(ct [(pt 1 1), (pt 3 1), (pt 3 3), (pt 1 3)]), (ct [(pt 5 5), (pt 7 5), (pt 7 7), (pt 5 7)])] cx) .cover
#guard gives (planar.multiregionInMultiregion [(ct [(pt 0 0), (pt 4 0), (pt 4 4), (pt 0 4)]), (ct [(pt 4 4), (pt 8 4), (pt 8 8), (pt 4 8)])] [(ct [(pt 0 0), (pt 4 0), (pt 4 4), (pt 0 4)]), (ct [(pt 5 5), (pt 7 5), (pt 7 7), (pt 5 7)])] cx) .encloses
#guard gives (planar.multiregionInMultiregion [(ct [(pt 1 1), (pt 3 1), (pt 3 3), (pt 1 3)]), (ct [(pt 5 1), (pt 7 1), (pt 7 3), (pt 5 3)]), (ct [(pt 5 5), (pt 7 5), (pt 7 7), (pt 5 7)])] [(ct [(pt 1 1), (pt 3 1), (pt 3 3), (pt 1 3)]), (ct [(pt 5 1), (pt 7 1), (pt 7 3), (pt 5 3)])] cx) .composite
#guard gives (planar.multiregionInMultiregion [(ct [(pt 0 0), (pt 4 0), (pt 4 4), (pt 0 4)]), (ct [(pt 4 4), (pt 8 4), (pt 8 8), (pt 4 8)])] [(ct [(pt 0 0), (pt 4 0), (pt 4 4), (pt 0 4)]), (ct [(pt 4 4), (pt 8 4), (pt 8 8), (pt 4 8)])] cx) .equal
#guard gives (planar.multiregionInMultiregion [(ct [(pt 1 1), (pt 3 1), (pt 3 3), (pt 1 3)]), (ct [(pt 5 1), (pt 7 1), (pt 7 3), (pt 5 3)])] [(ct [(pt 1 1), (pt 3 1), (pt 3 3), (pt 1 3)]), (ct [(pt 5 1), (pt 7 1), (pt 7 3), (pt 5 3)]), (ct [(pt 5 5), (pt 7 5), (pt 7 7), (pt 5 7)])] cx) .component
#guard gives (planar.multiregionInMultiregion [(ct [(pt 0 0), (pt 4 0), (pt 4 4), (pt 0 4)]), (ct [(pt 5 5), (pt 7 5), (pt 7 7), (pt 5 7)])] [(ct [(pt 0 0), (pt 4 0), (pt 4 4), (pt 0 4)]), (ct [(pt 4 4), (pt 8 4), (pt 8 8), (pt 4 8)])] cx) .enclosed
#guard gives (planar.multiregionInMultiregion [(ct [(pt 1 1), (pt 3 1), (pt 3 3), (pt 1 3)]), (ct [(pt 5 5), (pt 7 5), (pt 7 7), (pt 5 7)])] [(ct [(pt 0 0), (pt 4 0), (pt 4 4), (pt 0 4)]), (ct [(pt 4 4), (pt 8 4), (pt 8 8), (pt 4 8)])] cx) .within

/-! `point_in_polygon`, `/repo/orient/planar.py:1121-1170` -/

#guard decide (planar.pointInPolygon (pt 0 0) (pg (ct [(pt 1 1), (pt 3 1), (pt 3 3), (pt 1 3)]) []) cx = .exterior)
#guard decide (planar.pointInPolygon (pt 0 0) (pg (ct [(pt 0 0), (pt 4 0), (pt 4 4), (pt 0 4)]) []) cx = .boundary)
#guard decide (planar.pointInPolygon (pt 1 1) (pg (ct [(pt 1 1), (pt 3 1), (pt 3 3), (pt 1 3)]) []) cx = .boundary)
#guard decide (planar.pointInPolygon (pt 1 1) (pg (ct [(pt 0 0), (pt 4 0), (pt 4 4), (pt 0 4)]) []) cx = .interior)
#guard decide (planar.pointInPolygon (pt 2 2) (pg (ct [(pt 0 0), (pt 4 0), (pt 4 4), (pt 0 4)]) []) cx = .interior)
#guard decide (planar.pointInPolygon (pt 2 2) (pg (ct [(pt 0 0), (pt 4 0), (pt 4 4), (pt 0 4)]) [(ct [(pt 1 1), (pt 3 1), (pt 3 3), (pt 1 3)])]) cx = .exterior)

/-! `segment_in_polygon`, `/repo/orient/planar.py:1173-1233` -/

#guard gives (planar.segmentInPolygon (sg (pt 0 0) (pt 1 0)) (pg (ct [(pt 0 0), (pt 4 0), (pt 4 4), (pt 0 4)]) []) cx) .component
#guard gives (planar.segmentInPolygon (sg (pt 0 0) (pt 1 0)) (pg (ct [(pt 0 0), (pt 4 0), (pt 4 4), (pt 0 4)]) [(ct [(pt 1 1), (pt 3 1), (pt 3 3), (pt 1 3)])]) cx) .component
#guard gives (planar.segmentInPolygon (sg (pt 0 0) (pt 2 2)) (pg (ct [(pt 0 0), (pt 4 0), (pt 4 4), (pt 0 4)]) []) cx) .enclosed
#guard gives (planar.segmentInPolygon (sg (pt 0 0) (pt 2 2)) (pg (ct [(pt 0 0), (pt 4 0), (pt 4 4), (pt 0 4)]) [(ct [(pt 1 1), (pt 3 1), (pt 3 3), (pt 1 3)])]) cx) .cross
#guard gives (planar.segmentInPolygon (sg (pt 1 1) (pt 3 3)) (pg (ct [(pt 0 0), (pt 4 0), (pt 4 4), (pt 0 4)]) []) cx) .within
#guard gives (planar.segmentInPolygon (sg (pt 1 1) (pt 3 3)) (pg (ct [(pt 0 0), (pt 4 0), (pt 4 4), (pt 0 4)]) [(ct [(pt 1 1), (pt 3 1), (pt 3 3), (pt 1 3)])]) cx) .touch
#guard gives (planar.segmentInPolygon (sg (pt 0 0) (pt 4 4)) (pg (ct [(pt 0 0), (pt 4 0), (pt 4 4), (pt 0 4)]) []) cx) .enclosed
#guard gives (planar.segmentInPolygon (sg (pt 0 0) (pt 4 4)) (pg (ct [(pt 0 0), (pt 4 0), (pt 4 4), (pt 0 4)]) [(ct [(pt 1 1), (pt 3 1), (pt 3 3), (pt 1 3)])]) cx) .cross

/-! `multisegment_in_polygon`, `/repo/orient/planar.py:1236-1309` -/

#guard gives (planar.multisegmentInPolygon ⟨[(sg (pt 0 0) (pt 4 0)), (sg (pt 0 0) (pt 0 4)), (sg (pt 4 0) (pt 4 4)), (sg (pt 0 4) (pt 4 4))]⟩ (pg (ct [(pt 1 1), (pt 3 1), (pt 3 3), (pt 1 3)]) []) cx) .disjoint
#guard gives (planar.multisegmentInPolygon ⟨[(sg (pt 0 0) (pt 4 0)), (sg (pt 0 0) (pt 0 4)), (sg (pt 4 0) (pt 4 4)), (sg (pt 0 4) (pt 4 4)), (sg (pt 1 1) (pt 3 1)), (sg (pt 1 3) (pt 1 1)), (sg (pt 3 1) (pt 3 3)), (sg (pt 1 3) (pt 3 3))]⟩ (pg (ct [(pt 1 1), (pt 3 1), (pt 3 3), (pt 1 3)]) []) cx) .touch
#guard gives (planar.multisegmentInPolygon ⟨[(sg (pt 0 0) (pt 2 2)), (sg (pt 2 2) (pt 4 0)), (sg (pt 2 2) (pt 4 4)), (sg (pt 0 4) (pt 2 2))]⟩ (pg (ct [(pt 1 1), (pt 3 1), (pt 3 3), (pt 1 3)]) []) cx) .cross
#guard gives (planar.multisegmentInPolygon ⟨[(sg (pt 0 0) (pt 4 0)), (sg (pt 0 0) (pt 0 4)), (sg (pt 4 0) (pt 4 4)), (sg (pt 0 4) (pt 4 4))]⟩ (pg (ct [(pt 0 0), (pt 4 0), (pt 4 4), (pt 0 4)]) []) cx) .component
#guard gives (planar.multisegmentInPolygon ⟨[(sg (pt 0 0) (pt 4 0)), (sg (pt 0 0) (pt 0 4)), (sg (pt 4 0) (pt 4 4)), (sg (pt 0 4) (pt 4 4)), (sg (pt 1 1) (pt 3 1)), (sg (pt 1 3) (pt 1 1)), (sg (pt 3 1) (pt 3 3)), (sg (pt 1 3) (pt 3 3))]⟩ (pg (ct [(pt 0 0), (pt 4 0), (pt 4 4), (pt 0 4)]) []) cx) .enclosed
#guard gives (planar.multisegmentInPolygon ⟨[(sg (pt 1 1) (pt 3 1)), (sg (pt 1 3) (pt 1 1)), (sg (pt 3 1) (pt 3 3)), (sg (pt 1 3) (pt 3 3))]⟩ (pg (ct [(pt 0 0), (pt 4 0), (pt 4 4), (pt 0 4)]) []) cx) .within

/-! `contour_in_polygon`, `/repo/orient/planar.py:1312-1359` -/

#guard gives (planar.contourInPolygon (ct [(pt 0 0), (pt 4 0), (pt 4 4), (pt 0 4)]) (pg (ct [(pt 1 1), (pt 3 1), (pt 3 3), (pt 1 3)]) []) cx) .disjoint
#guard gives (planar.contourInPolygon (ct [(pt 0 0), (pt 4 0), (pt 4 4), (pt 0 4)]) (pg (ct [(pt 0 0), (pt 4 0), (pt 0 4)]) []) cx) .touch
#guard gives (planar.contourInPolygon (ct [(pt 1 1), (pt 3 1), (pt 3 3), (pt 1 3)]) (pg (ct [(pt 0 0), (pt 4 0), (pt 0 4)]) []) cx) .cross
#guard gives (planar.contourInPolygon (ct [(pt 0 0), (pt 4 0), (pt 4 4), (pt 0 4)]) (pg (ct [(pt 0 0), (pt 4 0), (pt 4 4), (pt 0 4)]) []) cx) .component
#guard gives (planar.contourInPolygon (ct [(pt 0 0), (pt 4 0), (pt 0 4)]) (pg (ct [(pt 0 0), (pt 4 0), (pt 4 4), (pt 0 4)]) []) cx) .enclosed
#guard gives (planar.contourInPolygon (ct [(pt 1 1), (pt 3 1), (pt 3 3), (pt 1 3)]) (pg (ct [(pt 0 0), (pt 4 0), (pt 4 4), (pt 0 4)]) []) cx) .within

/-! `region_in_polygon`, `/repo/orient/planar.py:1362-1415` -/

#guard gives (planar.regionInPolygon (ct [(pt 1 1), (pt 3 1), (pt 3 3), (pt 1 3)]) (pg (ct [(pt 4 0), (pt 8 0), (pt 8 4), (pt 4 4)]) []) cx) .disjoint
#guard gives (planar.regionInPolygon (ct [(pt 0 0), (pt 4 0), (pt 4 4), (pt 0 4)]) (pg (ct [(pt 4 0), (pt 8 0), (pt 8 4), (pt 4 4)]) []) cx) .touch
#guard gives (planar.regionInPolygon (ct [(pt 1 1), (pt 3 1), (pt 3 3), (pt 1 3)]) (pg (ct [(pt 0 0), (pt 4 0), (pt 0 4)]) []) cx) .overlap
#guard gives (planar.regionInPolygon (ct [(pt 0 0), (pt 4 0), (pt 4 4), (pt 0 4)]) (pg (ct [(pt 1 1), (pt 3 1), (pt 3 3), (pt 1 3)]) []) cx) .cover
#guard gives (planar.regionInPolygon (ct [(pt 0 0), (pt 4 0), (pt 4 4), (pt 0 4)]) (pg (ct [(pt 0 0), (pt 4 0), (pt 0 4)]) []) cx) .encloses
#guard gives (planar.regionInPolygon (ct [(pt 0 0), (pt 4 0), (pt 4 4), (pt 0 4)]) (pg (ct [(pt 0 0), (pt 4 0), (pt 4 4), (pt 0 4)]) []) cx) .equal
#guard gives (planar.regionInPolygon (ct [(pt 0 0), (pt 4 0), (pt 0 4)]) (pg (ct [(pt 0 0), (pt 4 0), (pt 4 4), (pt 0 4)]) []) cx) .enclosed
#guard gives (planar.regionInPolygon (ct [(pt 1 1), (pt 3 1), (pt 3 3), (pt 1 3)]) (pg (ct [(pt 0 0), (pt 4 0), (pt 4 4), (pt 0 4)]) []) cx) .within

/-! `multiregion_in_polygon`, `/repo/orient/planar.py:1418-1493` -/

#guard gives (planar.multiregionInPolygon [(ct [(pt 0 0), (pt 4 0), (pt 4 4), (pt 0 4)]), (ct [(pt 4 4), (pt 8 4), (pt 8 8), (pt 4 8)])] (pg (ct [(pt 5 1), (pt 7 1), (pt 7 3), (pt 5 3)]) []) cx) .disjoint
#guard gives (planar.multiregionInPolygon [(ct [(pt 1 1), (pt 3 1), (pt 3 3), (pt 1 3)]), (ct [(pt 5 1), (pt 7 1), (pt 7 3), (pt 5 3)])] (pg (ct [(pt 0 0), (pt 4 0), (pt 4 4), (pt 0 4)]) [(ct [(pt 1 1), (pt 3 1), (pt 3 3), (pt 1 3)])]) cx) .touch
#guard gives (planar.multiregionInPolygon [(ct [(pt 1 1), (pt 3 1), (pt 3 3), (pt 1 3)]), (ct [(pt 5 1), (pt 7 1), (pt 7 3), (pt 5 3)])] (pg (ct [(pt 0 0), (pt 4 0), (pt 4 4), (pt 0 4)]) []) cx) .overlap
#guard gives (planar.multiregionInPolygon [(ct [(pt 0 0), (pt 4 0), (pt 4 4), (pt 0 4)]), (ct [(pt 5 1), (pt 7 1), (pt 7 3), (pt 5 3)])] (pg (ct [(pt 1 1), (pt 3 1), (pt 3 3), (pt 1 3)]) []) cx) .cover
#guard gives (planar.multiregionInPolygon [(ct [(pt 0 0), (pt 4 0), (pt 4 4), (pt 0 4)]), (ct [(pt 5 1), (pt 7 1), (pt 7 3), (pt 5 3)])] (pg (ct [(pt 0 0), (pt 4 0), (pt 4 4), (pt 0 4)]) [(ct [(pt 1 1), (pt 3 1), (pt 3 3), (pt 1 3)])]) cx) .encloses
#guard gives (planar.multiregionInPolygon [(ct [(pt 0 0), (pt 4 0), (pt 4 4), (pt 0 4)]), (ct [(pt 5 1), (pt 7 1), (pt 7 3), (pt 5 3)])] (pg (ct [(pt 0 0), (pt 4 0), (pt 4 4), (pt 0 4)]) []) cx) .composite
#guard gives (planar.multiregionInPolygon [(ct [(pt 0 0), (pt 4 0), (pt 4 4), (pt 0 4)]), (ct [(pt 5 1), (pt 7 1), (pt 7 3), (pt 5 3)])] (pg (ct [(pt 0 0), (pt 8 0), (pt 8 8), (pt 0 8)]) []) cx) .enclosed
#guard gives (planar.multiregionInPolygon [(ct [(pt 1 1), (pt 3 1), (pt 3 3), (pt 1 3)]), (ct [(pt 5 1), (pt 7 1), (pt 7 3), (pt 5 3)])] (pg (ct [(pt 0 0), (pt 8 0), (pt 8 8), (pt 0 8)]) []) cx) .within

/-! `polygon_in_polygon`, `/repo/orient/planar.py:1496-1596` -/

#guard gives (planar.polygonInPolygon (pg (ct [(pt 0 0), (pt 7 0), (pt 7 7), (pt 0 7)]) [(ct [(pt 1 1), (pt 6 1), (pt 6 6), (pt 1 6)])]) (pg (ct [(pt 2 2), (pt 5 2), (pt 5 5), (pt 2 5)]) []) cx) .disjoint
#guard gives (planar.polygonInPolygon (pg (ct [(pt 2 2), (pt 5 2), (pt 5 5), (pt 2 5)]) []) (pg (ct [(pt 0 0), (pt 7 0), (pt 7 7), (pt 0 7)]) [(ct [(pt 1 1), (pt 6 1), (pt 6 6), (pt 1 6)])]) cx) .disjoint
#guard gives (planar.polygonInPolygon (pg (ct [(pt 0 0), (pt 7 0), (pt 7 7), (pt 0 7)]) [(ct [(pt 1 1), (pt 6 1), (pt 6 6), (pt 1 6)])]) (pg (ct [(pt 2 2), (pt 5 2), (pt 5 5), (pt 2 5)]) [(ct [(pt 3 3), (pt 4 3), (pt 4 4), (pt 3 4)])]) cx) .disjoint
#guard gives (planar.polygonInPolygon (pg (ct [(pt 2 2), (pt 5 2), (pt 5 5), (pt 2 5)]) [(ct [(pt 3 3), (pt 4 3), (pt 4 4), (pt 3 4)])]) (pg (ct [(pt 0 0), (pt 7 0), (pt 7 7), (pt 0 7)]) [(ct [(pt 1 1), (pt 6 1), (pt 6 6), (pt 1 6)])]) cx) .disjoint
#guard gives (planar.polygonInPolygon (pg (ct [(pt 1 1), (pt 6 1), (pt 6 6), (pt 1 6)]) []) (pg (ct [(pt 0 0), (pt 7 0), (pt 7 7), (pt 0 7)]) [(ct [(pt 1 1), (pt 6 1), (pt 6 6), (pt 1 6)])]) cx) .touch
#guard gives (planar.polygonInPolygon (pg (ct [(pt 0 0), (pt 7 0), (pt 7 7), (pt 0 7)]) [(ct [(pt 1 1), (pt 6 1), (pt 6 6), (pt 1 6)])]) (pg (ct [(pt 1 1), (pt 6 1), (pt 6 6), (pt 1 6)]) []) cx) .touch
#guard gives (planar.polygonInPolygon (pg (ct [(pt 0 0), (pt 7 0), (pt 7 7), (pt 0 7)]) [(ct [(pt 1 1), (pt 6 1), (pt 6 6), (pt 1 6)])]) (pg (ct [(pt 1 1), (pt 6 1), (pt 6 6), (pt 1 6)]) [(ct [(pt 2 2), (pt 5 2), (pt 5 5), (pt 2 5)])]) cx) .touch
#guard gives (planar.polygonInPolygon (pg (ct [(pt 1 1), (pt 6 1), (pt 6 6), (pt 1 6)]) [(ct [(pt 2 2), (pt 5 2), (pt 5 5), (pt 2 5)])]) (pg (ct [(pt 0 0), (pt 7 0), (pt 7 7), (pt 0 7)]) [(ct [(pt 1 1), (pt 6 1), (pt 6 6), (pt 1 6)])]) cx) .touch
#guard gives (planar.polygonInPolygon (pg (ct [(pt 1 1), (pt 6 1), (pt 6 6), (pt 1 6)]) []) (pg (ct [(pt 0 0), (pt 7 0), (pt 7 7), (pt 0 7)]) [(ct [(pt 2 2), (pt 5 2), (pt 5 5), (pt 2 5)])]) cx) .overlap
#guard gives (planar.polygonInPolygon (pg (ct [(pt 0 0), (pt 7 0), (pt 7 7), (pt 0 7)]) [(ct [(pt 2 2), (pt 5 2), (pt 5 5), (pt 2 5)])]) (pg (ct [(pt 1 1), (pt 6 1), (pt 6 6), (pt 1 6)]) []) cx) .overlap
#guard gives (planar.polygonInPolygon (pg (ct [(pt 0 0), (pt 7 0), (pt 7 7), (pt 0 7)]) [(ct [(pt 2 2), (pt 5 2), (pt 5 5), (pt 2 5)])]) (pg (ct [(pt 1 1), (pt 6 1), (pt 6 6), (pt 1 6)]) [(ct [(pt 3 3), (pt 4 3), (pt 4 4), (pt 3 4)])]) cx) .overlap
#guard gives (planar.polygonInPolygon (pg (ct [(pt 1 1), (pt 6 1), (pt 6 6), (pt 1 6)]) [(ct [(pt 3 3), (pt 4 3), (pt 4 4), (pt 3 4)])]) (pg (ct [(pt 0 0), (pt 7 0), (pt 7 7), (pt 0 7)]) [(ct [(pt 2 2), (pt 5 2), (pt 5 5), (pt 2 5)])]) cx) .overlap
#guard gives (planar.polygonInPolygon (pg (ct [(pt 0 0), (pt 7 0), (pt 7 7), (pt 0 7)]) []) (pg (ct [(pt 1 1), (pt 6 1), (pt 6 6), (pt 1 6)]) []) cx) .cover
#guard gives (planar.polygonInPolygon (pg (ct [(pt 0 0), (pt 7 0), (pt 7 7), (pt 0 7)]) [(ct [(pt 3 3), (pt 4 3), (pt 4 4), (pt 3 4)])]) (pg (ct [(pt 1 1), (pt 6 1), (pt 6 6), (pt 1 6)]) [(ct [(pt 2 2), (pt 5 2), (pt 5 5), (pt 2 5)])]) cx) .cover
#guard gives (planar.polygonInPolygon (pg (ct [(pt 0 0), (pt 7 0), (pt 7 7), (pt 0 7)]) []) (pg (ct [(pt 0 0), (pt 7 0), (pt 7 7), (pt 0 7)]) [(ct [(pt 1 1), (pt 6 1), (pt 6 6), (pt 1 6)])]) cx) .encloses
#guard gives (planar.polygonInPolygon (pg (ct [(pt 0 0), (pt 7 0), (pt 7 7), (pt 0 7)]) [(ct [(pt 2 2), (pt 5 2), (pt 5 5), (pt 2 5)])]) (pg (ct [(pt 0 0), (pt 7 0), (pt 7 7), (pt 0 7)]) [(ct [(pt 1 1), (pt 6 1), (pt 6 6), (pt 1 6)])]) cx) .encloses
#guard gives (planar.polygonInPolygon (pg (ct [(pt 0 0), (pt 7 0), (pt 7 7), (pt 0 7)]) [(ct [(pt 2 2), (pt 5 2), (pt 5 5), (pt 2 5)])]) (pg (ct [(pt 1 1), (pt 6 1), (pt 6 6), (pt 1 6)]) [(ct [(pt 2 2), (pt 5 2), (pt 5 5), (pt 2 5)])]) cx) .encloses
#guard gives (planar.polygonInPolygon (pg (ct [(pt 0 0), (pt 7 0), (pt 7 7), (pt 0 7)]) []) (pg (ct [(pt 0 0), (pt 7 0), (pt 7 7), (pt 0 7)]) []) cx) .equal
#guard gives (planar.polygonInPolygon (pg (ct [(pt 0 0), (pt 7 0), (pt 7 7), (pt 0 7)]) [(ct [(pt 1 1), (pt 6 1), (pt 6 6), (pt 1 6)])]) (pg (ct [(pt 0 0), (pt 7 0), (pt 7 7), (pt 0 7)]) [(ct [(pt 1 1), (pt 6 1), (pt 6 6), (pt 1 6)])]) cx) .equal
#guard gives (planar.polygonInPolygon (pg (ct [(pt 0 0), (pt 7 0), (pt 7 7), (pt 0 7)]) [(ct [(pt 1 1), (pt 6 1), (pt 6 6), (pt 1 6)])]) (pg (ct [(pt 0 0), (pt 7 0), (pt 7 7), (pt 0 7)]) []) cx) .enclosed
#guard gives (planar.polygonInPolygon (pg (ct [(pt 0 0), (pt 7 0), (pt 7 7), (pt 0 7)]) [(ct [(pt 1 1), (pt 6 1), (pt 6 6), (pt 1 6)])]) (pg (ct [(pt 0 0), (pt 7 0), (pt 7 7), (pt 0 7)]) [(ct [(pt 2 2), (pt 5 2), (pt 5 5), (pt 2 5)])]) cx) .enclosed
#guard gives (planar.polygonInPolygon (pg (ct [(pt 1 1), (pt 6 1), (pt 6 6), (pt 1 6)]) [(ct [(pt 2 2), (pt 5 2), (pt 5 5), (pt 2 5)])]) (pg (ct [(pt 0 0), (pt 7 0), (pt 7 7), (pt 0 7)]) [(ct [(pt 2 2), (pt 5 2), (pt 5 5), (pt 2 5)])]) cx) .enclosed
#guard gives (planar.polygonInPolygon (pg (ct [(pt 1 1), (pt 6 1), (pt 6 6), (pt 1 6)]) []) (pg (ct [(pt 0 0), (pt 7 0), (pt 7 7), (pt 0 7)]) []) cx) .within
#guard gives (planar.polygonInPolygon (pg (ct [(pt 1 1), (pt 6 1), (pt 6 6), (pt 1 6)]) [(ct [(pt 2 2), (pt 5 2), (pt 5 5), (pt 2 5)])]) (pg (ct [(pt 0 0), (pt 7 0), (pt 7 7), (pt 0 7)]) [(ct [(pt 3 3), (pt 4 3), (pt 4 4), (pt 3 4)])]) cx) .within

/-! `point_in_multipolygon`, `/repo/orient/planar.py:1599-1646` -/

#guard decide (planar.pointInMultipolygon (pt 6 2) ⟨[(pg (ct [(pt 0 0), (pt 4 0), (pt 4 4), (pt 0 4)]) []), (pg (ct [(pt 4 4), (pt 8 4), (pt 8 8), (pt 4 8)]) [])]⟩ cx = .exterior)
#guard decide (planar.pointInMultipolygon (pt 4 4) ⟨[(pg (ct [(pt 0 0), (pt 4 0), (pt 4 4), (pt 0 4)]) []), (pg (ct [(pt 4 4), (pt 8 4), (pt 8 8), (pt 4 8)]) [])]⟩ cx = .boundary)
#guard decide (planar.pointInMultipolygon (pt 2 2) ⟨[(pg (ct [(pt 0 0), (pt 4 0), (pt 4 4), (pt 0 4)]) []), (pg (ct [(pt 4 4), (pt 8 4), (pt 8 8), (pt 4 8)]) [])]⟩ cx = .interior)

/-! `segment_in_multipolygon`, `/repo/orient/planar.py:1649-1715` -/

#guard gives (planar.segmentInMultipolygon (sg (pt 2 5) (pt 2 9)) ⟨[(pg (ct [(pt 0 0), (pt 4 0), (pt 4 4), (pt 0 4)]) []), (pg (ct [(pt 4 4), (pt 8 4), (pt 8 8), (pt 4 8)]) [])]⟩ cx) .disjoint
#guard gives (planar.segmentInMultipolygon (sg (pt 2 4) (pt 2 8)) ⟨[(pg (ct [(pt 0 0), (pt 4 0), (pt 4 4), (pt 0 4)]) []), (pg (ct [(pt 4 4), (pt 8 4), (pt 8 8), (pt 4 8)]) [])]⟩ cx) .touch
#guard gives (planar.segmentInMultipolygon (sg (pt 2 2) (pt 2 6)) ⟨[(pg (ct [(pt 0 0), (pt 4 0), (pt 4 4), (pt 0 4)]) []), (pg (ct [(pt 4 4), (pt 8 4), (pt 8 8), (pt 4 8)]) [])]⟩ cx) .cross
#guard gives (planar.segmentInMultipolygon (sg (pt 2 4) (pt 6 4)) ⟨[(pg (ct [(pt 0 0), (pt 4 0), (pt 4 4), (pt 0 4)]) []), (pg (ct [(pt 4 4), (pt 8 4), (pt 8 8), (pt 4 8)]) [])]⟩ cx) .component
#guard gives (planar.segmentInMultipolygon (sg (pt 3 3) (pt 5 5)) ⟨[(pg (ct [(pt 0 0), (pt 4 0), (pt 4 4), (pt 0 4)]) []), (pg (ct [(pt 4 4), (pt 8 4), (pt 8 8), (pt 4 8)]) [])]⟩ cx) .enclosed
#guard gives (planar.segmentInMultipolygon (sg (pt 1 1) (pt 3 3)) ⟨[(pg (ct [(pt 0 0), (pt 4 0), (pt 4 4), (pt 0 4)]) []), (pg (ct [(pt 4 4), (pt 8 4), (pt 8 8), (pt 4 8)]) [])]⟩ cx) .within

/-! `multisegment_in_multipolygon`, `/repo/orient/planar.py:1718-1804` -/

#guard gives (planar.multisegmentInMultipolygon ⟨[(sg (pt 0 0) (pt 4 0)), (sg (pt 0 0) (pt 0 4)), (sg (pt 4 0) (pt 4 4)), (sg (pt 0 4) (pt 4 4))]⟩ ⟨[(pg (ct [(pt 1 1), (pt 3 1), (pt 3 3), (pt 1 3)]) []), (pg (ct [(pt 5 5), (pt 7 5), (pt 7 7), (pt 5 7)]) [])]⟩ cx) .disjoint
#guard gives (planar.multisegmentInMultipolygon ⟨[(sg (pt 0 0) (pt 4 0)), (sg (pt 0 0) (pt 0 4)), (sg (pt 4 0) (pt 4 4)), (sg (pt 0 4) (pt 4 4)), (sg (pt 1 1) (pt 3 1)), (sg (pt 1 3) (pt 1 1)), (sg (pt 3 1) (pt 3 3)), (sg (pt 1 3) (pt 3 3))]⟩ ⟨[(pg (ct [(pt 1 1), (pt 3 1), (pt 3 3), (pt 1 3)]) []), (pg (ct [(pt 5 5), (pt 7 5), (pt 7 7), (pt 5 7)]) [])]⟩ cx) .touch
#guard gives (planar.multisegmentInMultipolygon ⟨[(sg (pt 0 0) (pt 2 2)), (sg (pt 2 2) (pt 4 0)), (sg (pt 2 2) (pt 4 4)), (sg (pt 0 4) (pt 2 2))]⟩ ⟨[(pg (ct [(pt 1 1), (pt 3 1), (pt 3 3), (pt 1 3)]) []), (pg (ct [(pt 5 5), (pt 7 5), (pt 7 7), (pt 5 7)]) [])]⟩ cx) .cross
#guard gives (planar.multisegmentInMultipolygon ⟨[(sg (pt 0 0) (pt 4 0)), (sg (pt 0 0) (pt 0 4)), (sg (pt 4 0) (pt 4 4)), (sg (pt 0 4) (pt 4 4))]⟩ ⟨[(pg (ct [(pt 0 0), (pt 4 0), (pt 4 4), (pt 0 4)]) []), (pg (ct [(pt 4 4), (pt 8 4), (pt 8 8), (pt 4 8)]) [])]⟩ cx) .component
#guard gives (planar.multisegmentInMultipolygon ⟨[(sg (pt 1 1) (pt 3 1)), (sg (pt 1 3) (pt 1 1)), (sg (pt 3 1) (pt 3 3)), (sg (pt 1 3) (pt 3 3))]⟩ ⟨[(pg (ct [(pt 0 0), (pt 4 0), (pt 4 4), (pt 0 4)]) []), (pg (ct [(pt 4 4), (pt 8 4), (pt 8 8), (pt 4 8)]) [])]⟩ cx) .within

/-! `contour_in_multipolygon`, `/repo/orient/planar.py:1807-1881` -/

#guard gives (planar.contourInMultipolygon (ct [(pt 0 0), (pt 4 0), (pt 4 4), (pt 0 4)]) ⟨[(pg (ct [(pt 1 1), (pt 3 1), (pt 3 3), (pt 1 3)]) []), (pg (ct [(pt 5 1), (pt 7 1), (pt 7 3), (pt 5 3)]) [])]⟩ cx) .disjoint
#guard gives (planar.contourInMultipolygon (ct [(pt 4 0), (pt 8 0), (pt 8 4), (pt 4 4)]) ⟨[(pg (ct [(pt 0 0), (pt 4 0), (pt 4 4), (pt 0 4)]) []), (pg (ct [(pt 4 4), (pt 8 4), (pt 8 8), (pt 4 8)]) [])]⟩ cx) .touch
#guard gives (planar.contourInMultipolygon (ct [(pt 1 1), (pt 3 1), (pt 3 3), (pt 1 3)]) ⟨[(pg (ct [(pt 0 0), (pt 4 0), (pt 0 4)]) []), (pg (ct [(pt 4 0), (pt 8 0), (pt 8 4), (pt 4 4)]) [])]⟩ cx) .cross
#guard gives (planar.contourInMultipolygon (ct [(pt 0 0), (pt 4 0), (pt 4 4), (pt 0 4)]) ⟨[(pg (ct [(pt 0 0), (pt 4 0), (pt 4 4), (pt 0 4)]) []), (pg (ct [(pt 4 4), (pt 8 4), (pt 8 8), (pt 4 8)]) [])]⟩ cx) .component
#guard gives (planar.contourInMultipolygon (ct [(pt 0 0), (pt 4 0), (pt 0 4)]) ⟨[(pg (ct [(pt 0 0), (pt 4 0), (pt 4 4), (pt 0 4)]) []), (pg (ct [(pt 4 4), (pt 8 4), (pt 8 8), (pt 4 8)]) [])]⟩ cx) .enclosed
#guard gives (planar.contourInMultipolygon (ct [(pt 1 1), (pt 3 1), (pt 3 3), (pt 1 3)]) ⟨[(pg (ct [(pt 0 0), (pt 4 0), (pt 4 4), (pt 0 4)]) []), (pg (ct [(pt 4 4), (pt 8 4), (pt 8 8), (pt 4 8)]) [])]⟩ cx) .within

/-! `region_in_multipolygon`, `/repo/orient/planar.py:1884-1965` -/

#guard gives (planar.regionInMultipolygon (ct [(pt 4 4), (pt 8 4), (pt 8 8), (pt 4 8)]) ⟨[(pg (ct [(pt 1 1), (pt 3 1), (pt 3 3), (pt 1 3)]) []), (pg (ct [(pt 5 1), (pt 7 1), (pt 7 3), (pt 5 3)]) [])]⟩ cx) .disjoint
#guard gives (planar.regionInMultipolygon (ct [(pt 4 0), (pt 8 0), (pt 8 4), (pt 4 4)]) ⟨[(pg (ct [(pt 0 0), (pt 4 0), (pt 4 4), (pt 0 4)]) []), (pg (ct [(pt 4 4), (pt 8 4), (pt 8 8), (pt 4 8)]) [])]⟩ cx) .touch
#guard gives (planar.regionInMultipolygon (ct [(pt 0 0), (pt 4 0), (pt 4 4), (pt 0 4)]) ⟨[(pg (ct [(pt 1 1), (pt 3 1), (pt 3 3), (pt 1 3)]) []), (pg (ct [(pt 5 1), (pt 7 1), (pt 7 3), (pt 5 3)]) [])]⟩ cx) .overlap
#guard gives (planar.regionInMultipolygon (ct [(pt 0 0), (pt 8 0), (pt 8 8), (pt 0 8)]) ⟨[(pg (ct [(pt 1 1), (pt 3 1), (pt 3 3), (pt 1 3)]) []), (pg (ct [(pt 5 1), (pt 7 1), (pt 7 3), (pt 5 3)]) [])]⟩ cx) .cover
#guard gives (planar.regionInMultipolygon (ct [(pt 0 0), (pt 8 0), (pt 8 8), (pt 0 8)]) ⟨[(pg (ct [(pt 0 0), (pt 4 0), (pt 4 4), (pt 0 4)]) []), (pg (ct [(pt 4 4), (pt 8 4), (pt 8 8), (pt 4 8)]) [])]⟩ cx) .encloses
#guard gives (planar.regionInMultipolygon (ct [(pt 0 0), (pt 4 0), (pt 0 4)]) ⟨[(pg (ct [(pt 0 0), (pt 4 0), (pt 4 4), (pt 0 4)]) []), (pg (ct [(pt 4 4), (pt 8 4), (pt 8 8), (pt 4 8)]) [])]⟩ cx) .enclosed
#guard gives (planar.regionInMultipolygon (ct [(pt 1 1), (pt 3 1), (pt 3 3), (pt 1 3)]) ⟨[(pg (ct [(pt 0 0), (pt 4 0), (pt 4 4), (pt 0 4)]) []), (pg (ct [(pt 4 4), (pt 8 4), (pt 8 8), (pt 4 8)]) [])]⟩ cx) .within

/-! `multiregion_in_multipolygon`, `/repo/orient/planar.py:1968-2093` -/

#guard gives (planar.multiregionInMultipolygon [(ct [(pt 0 0), (pt 4 0), (pt 4 4), (pt 0 4)]), (ct [(pt 4 4), (pt 8 4), (pt 8 8), (pt 4 8)])] ⟨[(pg (ct [(pt 5 1), (pt 7 1), (pt 7 3), (pt 5 3)]) []), (pg (ct [(pt 1 5), (pt 3 5), (pt 3 7), (pt 1 7)]) [])]⟩ cx) .disjoint
#guard gives (planar.multiregionInMultipolygon [(ct [(pt 1 1), (pt 3 1), (pt 3 3), (pt 1 3)]), (ct [(pt 5 5), (pt 7 5), (pt 7 7), (pt 5 7)])] ⟨[(pg (ct [(pt 4 0), (pt 8 0), (pt 8 4), (pt 4 4)]) [(ct [(pt 5 1), (pt 7 1), (pt 7 3), (pt 5 3)])]), (pg (ct [(pt 0 4), (pt 4 4), (pt 4 8), (pt 0 8)]) [(ct [(pt 1 5), (pt 3 5), (pt 3 7), (pt 1 7)])])]⟩ cx) .disjoint
#guard gives (planar.multiregionInMultipolygon [(ct [(pt 0 0), (pt 4 0), (pt 4 4), (pt 0 4)]), (ct [(pt 4 4), (pt 8 4), (pt 8 8), (pt 4 8)])] ⟨[(pg (ct [(pt 4 0), (pt 8 0), (pt 8 4), (pt 4 4)]) []), (pg (ct [(pt 0 4), (pt 4 4), (pt 4 8), (pt 0 8)]) [])]⟩ cx) .touch
#guard gives (planar.multiregionInMultipolygon [(ct [(pt 1 1), (pt 3 1), (pt 3 3), (pt 1 3)]), (ct [(pt 5 5), (pt 7 5), (pt 7 7), (pt 5 7)])] ⟨[(pg (ct [(pt 0 0), (pt 4 0), (pt 4 4), (pt 0 4)]) [(ct [(pt 1 1), (pt 3 1), (pt 3 3), (pt 1 3)])]), (pg (ct [(pt 4 4), (pt 8 4), (pt 8 8), (pt 4 8)]) [(ct [(pt 5 5), (pt 7 5), (pt 7 7), (pt 5 7)])])]⟩ cx) .touch
#guard gives (planar.multiregionInMultipolygon [(ct [(pt 0 0), (pt 4 0), (pt 4 4), (pt 0 4)]), (ct [(pt 5 5), (pt 7 5), (pt 7 7), (pt 5 7)])] ⟨[(pg (ct [(pt 1 1), (pt 3 1), (pt 3 3), (pt 1 3)]) []), (pg (ct [(pt 4 4), (pt 8 4), (pt 8 8), (pt 4 8)]) [])]⟩ cx) .overlap
#guard gives (planar.multiregionInMultipolygon [(ct [(pt 0 0), (pt 4 0), (pt 4 4), (pt 0 4)]), (ct [(pt 4 4), (pt 8 4), (pt 8 8), (pt 4 8)])] ⟨[(pg (ct [(pt 1 1), (pt 3 1), (pt 3 3), (pt 1 3)]) []), (pg (ct [(pt 5 5), (pt 7 5), (pt 7 7), (pt 5 7)]) [])]⟩ cx) .cover
#guard gives (planar.multiregionInMultipolygon [(ct [(pt 0 0), (pt 4 0), (pt 4 4), (pt 0 4)]), (ct [(pt 5 5), (pt 7 5), (pt 7 7), (pt 5 7)])] ⟨[(pg (ct [(pt 1 1), (pt 3 1), (pt 3 3), (pt 1 3)]) []), (pg (ct [(pt 5 5), (pt 7 5), (pt 7 7), (pt 5 7)]) [])]⟩ cx) .encloses
#guard gives (planar.multiregionInMultipolygon [(ct [(pt 0 0), (pt 4 0), (pt 4 4), (pt 0 4)]), (ct [(pt 4 4), (pt 8 4), (pt 8 8), (pt 4 8)])] ⟨[(pg (ct [(pt 0 0), (pt 4 0), (pt 4 4), (pt 0 4)]) [(ct [(pt 1 1), (pt 3 1), (pt 3 3), (pt 1 3)])]), (pg (ct [(pt 4 4), (pt 8 4), (pt 8 8), (pt 4 8)]) [(ct [(pt 5 5), (pt 7 5), (pt 7 7), (pt 5 7)])])]⟩ cx) .encloses
#guard gives (planar.multiregionInMultipolygon [(ct [(pt 1 1), (pt 3 1), (pt 3 3), (pt 1 3)]), (ct [(pt 5 1), (pt 7 1), (pt 7 3), (pt 5 3)]), (ct [(pt 5 5), (pt 7 5), (pt 7 7), (pt 5 7)])] ⟨[(pg (ct [(pt 1 1), (pt 3 1), (pt 3 3), (pt 1 3)]) []), (pg (ct [(pt 5 5), (pt 7 5), (pt 7 7), (pt 5 7)]) [])]⟩ cx) .composite
#guard gives (planar.multiregionInMultipolygon [(ct [(pt 0 0), (pt 4 0), (pt 4 4), (pt 0 4)]), (ct [(pt 4 4), (pt 8 4), (pt 8 8), (pt 4 8)])] ⟨[(pg (ct [(pt 0 0), (pt 4 0), (pt 4 4), (pt 0 4)]) []), (pg (ct [(pt 4 4), (pt 8 4), (pt 8 8), (pt 4 8)]) [])]⟩ cx) .equal
#guard gives (planar.multiregionInMultipolygon [(ct [(pt 1 1), (pt 3 1), (pt 3 3), (pt 1 3)]), (ct [(pt 5 1), (pt 7 1), (pt 7 3), (pt 5 3)])] ⟨[(pg (ct [(pt 1 1), (pt 3 1), (pt 3 3), (pt 1 3)]) []), (pg (ct [(pt 5 1), (pt 7 1), (pt 7 3), (pt 5 3)]) []), (pg (ct [(pt 5 5), (pt 7 5), (pt 7 7), (pt 5 7)]) [])]⟩ cx) .component
#guard gives (planar.multiregionInMultipolygon [(ct [(pt 1 1), (pt 3 1), (pt 3 3), (pt 1 3)]), (ct [(pt 5 5), (pt 7 5), (pt 7 7), (pt 5 7)])] ⟨[(pg (ct [(pt 0 0), (pt 4 0), (pt 4 4), (pt 0 4)]) []), (pg (ct [(pt 5 5), (pt 7 5), (pt 7 7), (pt 5 7)]) [])]⟩ cx) .enclosed
#guard gives (planar.multiregionInMultipolygon [(ct [(pt 1 1), (pt 3 1), (pt 3 3), (pt 1 3)]), (ct [(pt 5 5), (pt 7 5), (pt 7 7), (pt 5 7)])] ⟨[(pg (ct [(pt 0 0), (pt 4 0), (pt 4 4), (pt 0 4)]) []), (pg (ct [(pt 4 4), (pt 8 4), (pt 8 8), (pt 4 8)]) [])]⟩ cx) .within

/-! `polygon_in_multipolygon`, `/repo/orient/planar.py:2096-2241` -/

#guard gives (planar.polygonInMultipolygon (pg (ct [(pt 0 0), (pt 7 0), (pt 7 7), (pt 0 7)]) [(ct [(pt 1 1), (pt 6 1), (pt 6 6), (pt 1 6)])]) ⟨[(pg (ct [(pt 2 2), (pt 5 2), (pt 5 5), (pt 2 5)]) [])]⟩ cx) .disjoint
#guard gives (planar.polygonInMultipolygon (pg (ct [(pt 2 2), (pt 5 2), (pt 5 5), (pt 2 5)]) []) ⟨[(pg (ct [(pt 0 0), (pt 7 0), (pt 7 7), (pt 0 7)]) [(ct [(pt 1 1), (pt 6 1), (pt 6 6), (pt 1 6)])])]⟩ cx) .disjoint
#guard gives (planar.polygonInMultipolygon (pg (ct [(pt 0 0), (pt 7 0), (pt 7 7), (pt 0 7)]) [(ct [(pt 1 1), (pt 6 1), (pt 6 6), (pt 1 6)])]) ⟨[(pg (ct [(pt 2 2), (pt 5 2), (pt 5 5), (pt 2 5)]) [(ct [(pt 3 3), (pt 4 3), (pt 4 4), (pt 3 4)])])]⟩ cx) .disjoint
#guard gives (planar.polygonInMultipolygon (pg (ct [(pt 2 2), (pt 5 2), (pt 5 5), (pt 2 5)]) [(ct [(pt 3 3), (pt 4 3), (pt 4 4), (pt 3 4)])]) ⟨[(pg (ct [(pt 0 0), (pt 7 0), (pt 7 7), (pt 0 7)]) [(ct [(pt 1 1), (pt 6 1), (pt 6 6), (pt 1 6)])])]⟩ cx) .disjoint
#guard gives (planar.polygonInMultipolygon (pg (ct [(pt 1 1), (pt 6 1), (pt 6 6), (pt 1 6)]) []) ⟨[(pg (ct [(pt 0 0), (pt 7 0), (pt 7 7), (pt 0 7)]) [(ct [(pt 1 1), (pt 6 1), (pt 6 6), (pt 1 6)])])]⟩ cx) .touch
#guard gives (planar.polygonInMultipolygon (pg (ct [(pt 0 0), (pt 7 0), (pt 7 7), (pt 0 7)]) [(ct [(pt 1 1), (pt 6 1), (pt 6 6), (pt 1 6)])]) ⟨[(pg (ct [(pt 1 1), (pt 6 1), (pt 6 6), (pt 1 6)]) [])]⟩ cx) .touch
#guard gives (planar.polygonInMultipolygon (pg (ct [(pt 0 0), (pt 7 0), (pt 7 7), (pt 0 7)]) [(ct [(pt 1 1), (pt 6 1), (pt 6 6), (pt 1 6)])]) ⟨[(pg (ct [(pt 1 1), (pt 6 1), (pt 6 6), (pt 1 6)]) [(ct [(pt 2 2), (pt 5 2), (pt 5 5), (pt 2 5)])])]⟩ cx) .touch
#guard gives (planar.polygonInMultipolygon (pg (ct [(pt 1 1), (pt 6 1), (pt 6 6), (pt 1 6)]) [(ct [(pt 2 2), (pt 5 2), (pt 5 5), (pt 2 5)])]) ⟨[(pg (ct [(pt 0 0), (pt 7 0), (pt 7 7), (pt 0 7)]) [(ct [(pt 1 1), (pt 6 1), (pt 6 6), (pt 1 6)])])]⟩ cx) .touch
#guard gives (planar.polygonInMultipolygon (pg (ct [(pt 1 1), (pt 6 1), (pt 6 6), (pt 1 6)]) []) ⟨[(pg (ct [(pt 0 0), (pt 7 0), (pt 7 7), (pt 0 7)]) [(ct [(pt 2 2), (pt 5 2), (pt 5 5), (pt 2 5)])])]⟩ cx) .overlap
#guard gives (planar.polygonInMultipolygon (pg (ct [(pt 0 0), (pt 7 0), (pt 7 7), (pt 0 7)]) [(ct [(pt 2 2), (pt 5 2), (pt 5 5), (pt 2 5)])]) ⟨[(pg (ct [(pt 1 1), (pt 6 1), (pt 6 6), (pt 1 6)]) [])]⟩ cx) .overlap
#guard gives (planar.polygonInMultipolygon (pg (ct [(pt 0 0), (pt 7 0), (pt 7 7), (pt 0 7)]) [(ct [(pt 2 2), (pt 5 2), (pt 5 5), (pt 2 5)])]) ⟨[(pg (ct [(pt 1 1), (pt 6 1), (pt 6 6), (pt 1 6)]) [(ct [(pt 3 3), (pt 4 3), (pt 4 4), (pt 3 4)])])]⟩ cx) .overlap
#guard gives (planar.polygonInMultipolygon (pg (ct [(pt 1 1), (pt 6 1), (pt 6 6), (pt 1 6)]) [(ct [(pt 3 3), (pt 4 3), (pt 4 4), (pt 3 4)])]) ⟨[(pg (ct [(pt 0 0), (pt 7 0), (pt 7 7), (pt 0 7)]) [(ct [(pt 2 2), (pt 5 2), (pt 5 5), (pt 2 5)])])]⟩ cx) .overlap
#guard gives (planar.polygonInMultipolygon (pg (ct [(pt 0 0), (pt 7 0), (pt 7 7), (pt 0 7)]) []) ⟨[(pg (ct [(pt 1 1), (pt 6 1), (pt 6 6), (pt 1 6)]) [])]⟩ cx) .cover
#guard gives (planar.polygonInMultipolygon (pg (ct [(pt 0 0), (pt 7 0), (pt 7 7), (pt 0 7)]) [(ct [(pt 3 3), (pt 4 3), (pt 4 4), (pt 3 4)])]) ⟨[(pg (ct [(pt 1 1), (pt 6 1), (pt 6 6), (pt 1 6)]) [(ct [(pt 2 2), (pt 5 2), (pt 5 5), (pt 2 5)])])]⟩ cx) .cover
#guard gives (planar.polygonInMultipolygon (pg (ct [(pt 0 0), (pt 7 0), (pt 7 7), (pt 0 7)]) []) ⟨[(pg (ct [(pt 0 0), (pt 7 0), (pt 7 7), (pt 0 7)]) [(ct [(pt 1 1), (pt 6 1), (pt 6 6), (pt 1 6)])])]⟩ cx) .encloses
#guard gives (planar.polygonInMultipolygon (pg (ct [(pt 0 0), (pt 7 0), (pt 7 7), (pt 0 7)]) [(ct [(pt 2 2), (pt 5 2), (pt 5 5), (pt 2 5)])]) ⟨[(pg (ct [(pt 0 0), (pt 7 0), (pt 7 7), (pt 0 7)]) [(ct [(pt 1 1), (pt 6 1), (pt 6 6), (pt 1 6)])])]⟩ cx) .encloses
#guard gives (planar.polygonInMultipolygon (pg (ct [(pt 0 0), (pt 7 0), (pt 7 7), (pt 0 7)]) [(ct [(pt 2 2), (pt 5 2), (pt 5 5), (pt 2 5)])]) ⟨[(pg (ct [(pt 1 1), (pt 6 1), (pt 6 6), (pt 1 6)]) [(ct [(pt 2 2), (pt 5 2), (pt 5 5), (pt 2 5)])])]⟩ cx) .encloses
#guard gives (planar.polygonInMultipolygon (pg (ct [(pt 0 0), (pt 7 0), (pt 7 7), (pt 0 7)]) []) ⟨[(pg (ct [(pt 0 0), (pt 7 0), (pt 7 7), (pt 0 7)]) [])]⟩ cx) .equal
#guard gives (planar.polygonInMultipolygon (pg (ct [(pt 0 0), (pt 7 0), (pt 7 7), (pt 0 7)]) [(ct [(pt 1 1), (pt 6 1), (pt 6 6), (pt 1 6)])]) ⟨[(pg (ct [(pt 0 0), (pt 7 0), (pt 7 7), (pt 0 7)]) [(ct [(pt 1 1), (pt 6 1), (pt 6 6), (pt 1 6)])])]⟩ cx) .equal
#guard gives (planar.polygonInMultipolygon (pg (ct [(pt 2 2), (pt 5 2), (pt 5 5), (pt 2 5)]) []) ⟨[(pg (ct [(pt 0 0), (pt 7 0), (pt 7 7), (pt 0 7)]) [(ct [(pt 1 1), (pt 6 1), (pt 6 6), (pt 1 6)])]), (pg (ct [(pt 2 2), (pt 5 2), (pt 5 5), (pt 2 5)]) [])]⟩ cx) .component
#guard gives (planar.polygonInMultipolygon (pg (ct [(pt 2 2), (pt 5 2), (pt 5 5), (pt 2 5)]) [(ct [(pt 3 3), (pt 4 3), (pt 4 4), (pt 3 4)])]) ⟨[(pg (ct [(pt 0 0), (pt 7 0), (pt 7 7), (pt 0 7)]) [(ct [(pt 1 1), (pt 6 1), (pt 6 6), (pt 1 6)])]), (pg (ct [(pt 2 2), (pt 5 2), (pt 5 5), (pt 2 5)]) [(ct [(pt 3 3), (pt 4 3), (pt 4 4), (pt 3 4)])])]⟩ cx) .component
#guard gives (planar.polygonInMultipolygon (pg (ct [(pt 0 0), (pt 7 0), (pt 7 7), (pt 0 7)]) [(ct [(pt 1 1), (pt 6 1), (pt 6 6), (pt 1 6)])]) ⟨[(pg (ct [(pt 0 0), (pt 7 0), (pt 7 7), (pt 0 7)]) [])]⟩ cx) .enclosed
#guard gives (planar.polygonInMultipolygon (pg (ct [(pt 0 0), (pt 7 0), (pt 7 7), (pt 0 7)]) [(ct [(pt 1 1), (pt 6 1), (pt 6 6), (pt 1 6)])]) ⟨[(pg (ct [(pt 0 0), (pt 7 0), (pt 7 7), (pt 0 7)]) [(ct [(pt 2 2), (pt 5 2), (pt 5 5), (pt 2 5)])])]⟩ cx) .enclosed
#guard gives (planar.polygonInMultipolygon (pg (ct [(pt 1 1), (pt 6 1), (pt 6 6), (pt 1 6)]) [(ct [(pt 2 2), (pt 5 2), (pt 5 5), (pt 2 5)])]) ⟨[(pg (ct [(pt 0 0), (pt 7 0), (pt 7 7), (pt 0 7)]) [(ct [(pt 2 2), (pt 5 2), (pt 5 5), (pt 2 5)])])]⟩ cx) .enclosed
#guard gives (planar.polygonInMultipolygon (pg (ct [(pt 1 1), (pt 6 1), (pt 6 6), (pt 1 6)]) []) ⟨[(pg (ct [(pt 0 0), (pt 7 0), (pt 7 7), (pt 0 7)]) [])]⟩ cx) .within
#guard gives (planar.polygonInMultipolygon (pg (ct [(pt 1 1), (pt 6 1), (pt 6 6), (pt 1 6)]) [(ct [(pt 2 2), (pt 5 2), (pt 5 5), (pt 2 5)])]) ⟨[(pg (ct [(pt 0 0), (pt 7 0), (pt 7 7), (pt 0 7)]) [(ct [(pt 3 3), (pt 4 3), (pt 4 4), (pt 3 4)])])]⟩ cx) .within

/-! `multipolygon_in_multipolygon`, `/repo/orient/planar.py:2244-2375` -/

#guard gives (planar.multipolygonInMultipolygon ⟨[(pg (ct [(pt 1 1), (pt 3 1), (pt 3 3), (pt 1 3)]) []), (pg (ct [(pt 5 5), (pt 7 5), (pt 7 7), (pt 5 7)]) [])]⟩ ⟨[(pg (ct [(pt 4 0), (pt 8 0), (pt 8 4), (pt 4 4)]) []), (pg (ct [(pt 0 4), (pt 4 4), (pt 4 8), (pt 0 8)]) [])]⟩ cx) .disjoint
#guard gives (planar.multipolygonInMultipolygon ⟨[(pg (ct [(pt 0 0), (pt 4 0), (pt 4 4), (pt 0 4)]) []), (pg (ct [(pt 4 4), (pt 8 4), (pt 8 8), (pt 4 8)]) [])]⟩ ⟨[(pg (ct [(pt 4 0), (pt 8 0), (pt 8 4), (pt 4 4)]) []), (pg (ct [(pt 0 4), (pt 4 4), (pt 4 8), (pt 0 8)]) [])]⟩ cx) .touch
#guard gives (planar.multipolygonInMultipolygon ⟨[(pg (ct [(pt 1 1), (pt 3 1), (pt 3 3), (pt 1 3)]) []), (pg (ct [(pt 5 5), (pt 7 5), (pt 7 7), (pt 5 7)]) [])]⟩ ⟨[(pg (ct [(pt 0 0), (pt 4 0), (pt 4 4), (pt 0 4)]) [(ct [(pt 1 1), (pt 3 1), (pt 3 3), (pt 1 3)])]), (pg (ct [(pt 4 4), (pt 8 4), (pt 8 8), (pt 4 8)]) [(ct [(pt 5 5), (pt 7 5), (pt 7 7), (pt 5 7)])])]⟩ cx) .touch
#guard gives (planar.multipolygonInMultipolygon ⟨[(pg (ct [(pt 0 0), (pt 4 0), (pt 4 4), (pt 0 4)]) []), (pg (ct [(pt 5 5), (pt 7 5), (pt 7 7), (pt 5 7)]) [])]⟩ ⟨[(pg (ct [(pt 1 1), (pt 3 1), (pt 3 3), (pt 1 3)]) []), (pg (ct [(pt 4 4), (pt 8 4), (pt 8 8), (pt 4 8)]) [])]⟩ cx) .overlap
#guard gives (planar.multipolygonInMultipolygon ⟨[(pg (ct [(pt 0 0), (pt 4 0), (pt 4 4), (pt 0 4)]) []), (pg (ct [(pt 4 4), (pt 8 4), (pt 8 8), (pt 4 8)]) [])]⟩ ⟨[(pg (ct [(pt 1 1), (pt 3 1), (pt 3 3), (pt 1 3)]) []), (pg (ct [(pt 5 5), (pt 7 5), (pt 7 7), (pt 5 7)]) [])]⟩ cx) .cover
#guard gives (planar.multipolygonInMultipolygon ⟨[(pg (ct [(pt 0 0), (pt 4 0), (pt 4 4), (pt 0 4)]) []), (pg (ct [(pt 5 5), (pt 7 5), (pt 7 7), (pt 5 7)]) [])]⟩ ⟨[(pg (ct [(pt 1 1), (pt 3 1), (pt 3 3), (pt 1 3)]) []), (pg (ct [(pt 5 5), (pt 7 5), (pt 7 7), (pt 5 7)]) [])]⟩ cx) .encloses
#guard gives (planar.multipolygonInMultipolygon ⟨[(pg (ct [(pt 0 0), (pt 4 0), (pt 4 4), (pt 0 4)]) []), (pg (ct [(pt 4 4), (pt 8 4), (pt 8 8), (pt 4 8)]) [])]⟩ ⟨[(pg (ct [(pt 0 0), (pt 4 0), (pt 4 4), (pt 0 4)]) [(ct [(pt 1 1), (pt 3 1), (pt 3 3), (pt 1 3)])]), (pg (ct [(pt 4 4), (pt 8 4), (pt 8 8), (pt 4 8)]) [(ct [(pt 5 5), (pt 7 5), (pt 7 7), (pt 5 7)])])]⟩ cx) .encloses
#guard gives (planar.multipolygonInMultipolygon ⟨[(pg (ct [(pt 1 1), (pt 3 1), (pt 3 3), (pt 1 3)]) []), (pg (ct [(pt 5 1), (pt 7 1), (pt 7 3), (pt 5 3)]) []), (pg (ct [(pt 5 5), (pt 7 5), (pt 7 7), (pt 5 7)]) [])]⟩ ⟨[(pg (ct [(pt 1 1), (pt 3 1), (pt 3 3), (pt 1 3)]) []), (pg (ct [(pt 5 5), (pt 7 5), (pt 7 7), (pt 5 7)]) [])]⟩ cx) .composite
#guard gives (planar.multipolygonInMultipolygon ⟨[(pg (ct [(pt 0 0), (pt 4 0), (pt 4 4), (pt 0 4)]) []), (pg (ct [(pt 4 4), (pt 8 4), (pt 8 8), (pt 4 8)]) [])]⟩ ⟨[(pg (ct [(pt 0 0), (pt 4 0), (pt 4 4), (pt 0 4)]) []), (pg (ct [(pt 4 4), (pt 8 4), (pt 8 8), (pt 4 8)]) [])]⟩ cx) .equal
#guard gives (planar.multipolygonInMultipolygon ⟨[(pg (ct [(pt 1 1), (pt 3 1), (pt 3 3), (pt 1 3)]) []), (pg (ct [(pt 5 1), (pt 7 1), (pt 7 3), (pt 5 3)]) [])]⟩ ⟨[(pg (ct [(pt 1 1), (pt 3 1), (pt 3 3), (pt 1 3)]) []), (pg (ct [(pt 5 1), (pt 7 1), (pt 7 3), (pt 5 3)]) []), (pg (ct [(pt 5 5), (pt 7 5), (pt 7 7), (pt 5 7)]) [])]⟩ cx) .component
#guard gives (planar.multipolygonInMultipolygon ⟨[(pg (ct [(pt 1 1), (pt 3 1), (pt 3 3), (pt 1 3)]) []), (pg (ct [(pt 5 5), (pt 7 5), (pt 7 7), (pt 5 7)]) [])]⟩ ⟨[(pg (ct [(pt 0 0), (pt 4 0), (pt 4 4), (pt 0 4)]) []), (pg (ct [(pt 5 5), (pt 7 5), (pt 7 7), (pt 5 7)]) [])]⟩ cx) .enclosed
#guard gives (planar.multipolygonInMultipolygon ⟨[(pg (ct [(pt 1 1), (pt 3 1), (pt 3 3), (pt 1 3)]) []), (pg (ct [(pt 5 5), (pt 7 5), (pt 7 7), (pt 5 7)]) [])]⟩ ⟨[(pg (ct [(pt 0 0), (pt 4 0), (pt 4 4), (pt 0 4)]) []), (pg (ct [(pt 4 4), (pt 8 4), (pt 8 8), (pt 4 8)]) [])]⟩ cx) .within

end Orient.Tests.Docstrings
