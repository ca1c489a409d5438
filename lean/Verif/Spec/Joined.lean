import Verif.Spec.Geometry

/-! # Paths

Nothing here mentions the functions of the model. -/

namespace Orient

variable {K : Type} [Field K] [LinearOrder K]

/-- The points are joined by a polyline without points of the set. -/
inductive Joined (S : Set (Point K)) (p : Point K) : Point K → Prop
  | refl : Joined S p p
  | step {q r : Point K} : Joined S p q → (∀ z ∈ (⟨q, r⟩ : Segment K).pts, z ∉ S) → Joined S p r

end Orient
