import Verif.Spec.Geometry

/-! Affine maps of the plane. -/

namespace Orient

variable {K : Type} [Field K]

/-- The affine map with the given matrix and translation. -/
structure Affine (K : Type) where
  xx : K
  xy : K
  yx : K
  yy : K
  tx : K
  ty : K

namespace Affine

/-- The determinant of the matrix. -/
def det (f : Affine K) : K := f.xx * f.yy - f.xy * f.yx

/-- The image of a point. -/
def apply (f : Affine K) (p : Point K) : Point K :=
  ⟨f.xx * p.x + f.xy * p.y + f.tx, f.yx * p.x + f.yy * p.y + f.ty⟩

/-- The image of a contour. -/
def contour (f : Affine K) (c : Contour K) : Contour K := ⟨c.vertices.map f.apply⟩

/-- The image of a segment. -/
def segment (f : Affine K) (s : Segment K) : Segment K := ⟨f.apply s.start, f.apply s.finish⟩

/-- The image of a multisegment. -/
def multisegment (f : Affine K) (m : Multisegment K) : Multisegment K := ⟨m.segments.map f.segment⟩

/-- The image of a multiregion. -/
def multiregion (f : Affine K) (m : Multiregion K) : Multiregion K := List.map f.contour m

/-- The image of a polygon. -/
def polygon (f : Affine K) (g : Polygon K) : Polygon K := ⟨f.contour g.border, f.multiregion g.holes⟩

/-- The image of a multipolygon. -/
def multipolygon (f : Affine K) (m : Multipolygon K) : Multipolygon K := ⟨m.polygons.map f.polygon⟩

end Affine

end Orient
