import Verif.Spec.Linear

/-! The segments that geometries are drawn with, and when segments of one geometry overlap. -/

namespace Orient

variable {K : Type}

/-- The edges of the contours of a multiregion. -/
def Multiregion.edgeList (m : Multiregion K) : List (Segment K) :=
  List.flatMap (fun c : Contour K => c.edgeList) m

/-- The edges of the border and of the holes of a polygon. -/
def Polygon.edgeList (g : Polygon K) : List (Segment K) :=
  g.border.edgeList ++ Multiregion.edgeList g.holes

/-- The edges of the polygons of a multipolygon. -/
def Multipolygon.edgeList (m : Multipolygon K) : List (Segment K) :=
  m.polygons.flatMap Polygon.edgeList

/-- A contour with at least a vertex, all edges of which have different endpoints. -/
def Contour.Drawn (c : Contour K) : Prop :=
  c.vertices ≠ [] ∧ ∀ e ∈ c.edgeList, e.Nondegenerate

/-- All contours are drawn. -/
def Multiregion.Drawn (m : Multiregion K) : Prop := ∀ c ∈ m, Contour.Drawn c

/-- The border and the holes are drawn. -/
def Polygon.Drawn (g : Polygon K) : Prop := g.border.Drawn ∧ Multiregion.Drawn g.holes

/-- All polygons are drawn. -/
def Multipolygon.Drawn (m : Multipolygon K) : Prop := ∀ g ∈ m.polygons, Polygon.Drawn g

variable [Field K] [LinearOrder K]

/-- Two different segments of the list have a non-degenerate piece in common. -/
def SelfOverlap (l : List (Segment K)) : Prop :=
  ∃ (i j : Nat) (hi : i < l.length) (hj : j < l.length), i ≠ j ∧ SharesPiece l[i].pts l[j].pts

end Orient
