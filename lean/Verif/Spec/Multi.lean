import Verif.Spec.Compound
import Verif.Spec.Boundary
import Verif.Spec.Joined

/-! # Specification of multiregions, polygons and multipolygons as sets of points

Nothing here mentions the functions of the model. -/

namespace Orient

variable {K : Type} [Field K] [LinearOrder K]

/-- The points inside of one of the regions. -/
def Multiregion.interior (m : Multiregion K) : Set (Point K) := {p | ∃ c ∈ m, p ∈ Contour.interior c}

/-- The points of the boundaries of the regions. -/
def Multiregion.pts (m : Multiregion K) : Set (Point K) := {p | ∃ c ∈ m, p ∈ Contour.pts c}

/-- The points outside of all regions. -/
def Multiregion.exterior (m : Multiregion K) : Set (Point K) := {p | ∀ c ∈ m, p ∈ Contour.exterior c}

/-- A multiregion: regions bounded by simple contours, without common inner points and without common
pieces of the boundaries (they may touch each other in single points). -/
structure Multiregion.Valid (m : Multiregion K) : Prop where
  simple : ∀ c ∈ m, Contour.Simple c
  apart : List.Pairwise (fun a b : Contour K => a.interior ∩ b.interior = ∅ ∧ ¬ SharesPiece a.pts b.pts) m

/-- The points inside of the border and outside of the holes. -/
def Polygon.interior (g : Polygon K) : Set (Point K) :=
  {p | p ∈ g.border.interior ∧ p ∈ Multiregion.exterior g.holes}

/-- The points of the border and of the boundaries of the holes. -/
def Polygon.pts (g : Polygon K) : Set (Point K) := g.border.pts ∪ Multiregion.pts g.holes

/-- The points outside of the border and those inside of holes. -/
def Polygon.exterior (g : Polygon K) : Set (Point K) :=
  g.border.exterior ∪ Multiregion.interior g.holes

/-- The edges of the border and of the holes. -/
def Polygon.edges (g : Polygon K) : List (Segment K) :=
  g.border.edgeList ++ g.holes.flatMap Contour.edgeList

/-- A polygon: a simple border and holes inside of it which form a multiregion, without common pieces of
the border and holes (holes may touch the border in single points). -/
structure Polygon.Valid (g : Polygon K) : Prop where
  border : g.border.Simple
  holes : Multiregion.Valid g.holes
  inside : ∀ h ∈ g.holes, Contour.interior h ⊆ g.border.interior
  apart : ∀ h ∈ g.holes, ¬ SharesPiece g.border.pts (Contour.pts h)

/-- The inner points of the polygon are joined with each other by polylines inside of it. -/
def Polygon.Connected (g : Polygon K) : Prop :=
  ∀ p ∈ g.interior, ∀ q ∈ g.interior, Joined g.pts p q

/-- The points inside of one of the polygons. -/
def Multipolygon.interior (m : Multipolygon K) : Set (Point K) := {p | ∃ g ∈ m.polygons, p ∈ g.interior}

/-- The points of the boundaries of the polygons. -/
def Multipolygon.pts (m : Multipolygon K) : Set (Point K) := {p | ∃ g ∈ m.polygons, p ∈ g.pts}

/-- The points outside of all polygons. -/
def Multipolygon.exterior (m : Multipolygon K) : Set (Point K) :=
  {p | ∀ g ∈ m.polygons, p ∈ g.exterior}

/-- A multipolygon: polygons without common inner points and common pieces of the boundaries. -/
structure Multipolygon.Valid (m : Multipolygon K) : Prop where
  valid : ∀ g ∈ m.polygons, Polygon.Valid g
  apart : m.polygons.Pairwise fun g g' => g.interior ∩ g'.interior = ∅ ∧ ¬ SharesPiece g.pts g'.pts

end Orient
