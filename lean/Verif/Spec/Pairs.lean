import Verif.Spec.Multi
import Verif.Spec.Compound

/-! What is answered about two polygons, and about a multiregion and a polygon. -/

namespace Orient

variable {K : Type} [Field K] [LinearOrder K]

/-- The regions in the borders have common inner points, and no hole contains the border of the other polygon. -/
def Polygon.Entangled (t g : Polygon K) : Prop :=
  (t.border.interior ∩ g.border.interior).Nonempty ∧
    (∀ d ∈ g.holes, ¬ t.border.interior ⊆ Contour.interior d) ∧
    ∀ d ∈ t.holes, ¬ g.border.interior ⊆ Contour.interior d

/-- The border of the first polygon is inside of the border of the second one, and the holes of the second one
which are inside of the border of the first one, of which there are some, are inside of its holes. -/
def Polygon.LooksWithin (t g : Polygon K) : Prop :=
  t.border.interior ∪ t.border.pts ⊆ g.border.interior ∧
    (∃ d ∈ g.holes, Contour.interior d ⊆ t.border.interior) ∧
    ∀ d ∈ g.holes, Contour.interior d ⊆ t.border.interior →
      Contour.interior d ∪ Contour.pts d ⊆ Multiregion.interior t.holes

/-- The answer about two polygons in the relation `q`. -/
def PolygonAnswer (t g : Polygon K) : Relation → Relation → Prop
  | .component, r => r = .enclosed
  | .composite, r => r = .encloses
  | .touch, r => (t.Entangled g → r = .overlap) ∧ (¬ t.Entangled g → r = .touch)
  | .enclosed, r => (t.LooksWithin g → r = .within) ∧ (¬ t.LooksWithin g → r = .enclosed)
  | .encloses, r => (g.LooksWithin t → r = .cover) ∧ (¬ g.LooksWithin t → r = .encloses)
  | q, r => r = q

/-- The answer about a multiregion and a polygon with holes in the relation `q`. -/
def MultiregionAnswer (m : Multiregion K) (g : Polygon K) : Relation → Relation → Prop
  | .component, r | .equal, r => r = .enclosed
  | .composite, r => r = .overlap
  | .encloses, r =>
    ((∃ c ∈ m, g.border.interior ⊆ Contour.interior c) → r = .encloses) ∧
      ((¬ ∃ c ∈ m, g.border.interior ⊆ Contour.interior c) → r = .overlap)
  | q, r => r = q

end Orient
