import Verif.Spec.Geometry

/-! # Contours without superfluous vertices -/

namespace Orient

variable {K : Type} [Field K] [LinearOrder K]

/-- No vertex is on a line with the vertices before and after it. -/
def Contour.Cornered (c : Contour K) : Prop :=
  ∀ a w b, ⟨a, w⟩ ∈ c.edgeList → ⟨w, b⟩ ∈ c.edgeList → cross a w b ≠ 0

end Orient
