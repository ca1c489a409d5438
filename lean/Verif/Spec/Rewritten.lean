import Verif.Spec.Geometry
import Verif.Spec.Linear

/-! Geometries written down in other ways. -/

namespace Orient

variable {K : Type}

/-- Each element of one of the lists is related to an element of the other one. -/
def SameUpTo {α : Type} (R : α → α → Prop) (l m : List α) : Prop :=
  (∀ a ∈ l, ∃ b ∈ m, R a b) ∧ ∀ b ∈ m, ∃ a ∈ l, R a b

/-- The segments differ at most in direction. -/
def Segment.Rewritten (s t : Segment K) : Prop := t = s ∨ t = s.reverse

/-- The multisegments differ at most in the order of the segments and in their directions. -/
def Multisegment.Rewritten (a b : Multisegment K) : Prop := SameUpTo Segment.Rewritten a.segments b.segments

/-- The multiregions differ at most in the order of the regions, and these in the first vertices and in the
orientation. -/
def Multiregion.Rewritten (a b : Multiregion K) : Prop := SameUpTo Contour.SameCycle a b

/-- The polygons differ at most in the first vertices and the orientation of the border and of the holes, and in
the order of the holes. -/
def Polygon.Rewritten (a b : Polygon K) : Prop :=
  a.border.SameCycle b.border ∧ Multiregion.Rewritten a.holes b.holes

/-- The multipolygons differ at most in the order of the polygons and in how these are written down. -/
def Multipolygon.Rewritten (a b : Multipolygon K) : Prop := SameUpTo Polygon.Rewritten a.polygons b.polygons

end Orient
