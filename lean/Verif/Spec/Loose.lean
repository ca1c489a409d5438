import Verif.Spec.Multi
import Mathlib.Data.Set.Subsingleton

/-! # Contours which touch each other without closing a ring

Nothing here mentions the functions of the model. -/

namespace Orient

variable {K : Type} [Field K] [LinearOrder K]

/-- Each contour has at most one common point with all the following ones together. -/
def Loose : List (Contour K) → Prop
  | [] => True
  | c :: m => (c.pts ∩ Multiregion.pts m).Subsingleton ∧ Loose m

/-- The border and the holes can be ordered such that each has at most one common point with all the
following ones together (for example: none of them touch each other). -/
def Polygon.Loose (g : Polygon K) : Prop := ∃ m : List (Contour K), m.Perm (g.border :: g.holes) ∧ Orient.Loose m

end Orient
