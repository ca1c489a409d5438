import Verif.Spec.Geometry
import Mathlib.Data.Set.Card

/-! # Specification vocabulary: where segments meet -/

namespace Orient

variable {K : Type} [Field K] [LinearOrder K]

/-- `v` meets `u` in the point `p` inside of `u`, and no piece of `u` around `p` is a part of `v`: `v`
crosses `u` in `p` or ends there. -/
def Segment.MetAt (u v : Segment K) (p : Point K) : Prop :=
  p ∈ u.pts ∧ ¬ u.IsEndpoint p ∧ p ∈ v.pts ∧
    ∀ w : Segment K, p ∈ w.pts → ¬ w.IsEndpoint p → w.pts ⊆ u.pts → ¬ w.pts ⊆ v.pts

/-- The points inside of `u` where a segment of the list meets it. -/
def contactPoints (l : List (Segment K)) (u : Segment K) : Set (Point K) :=
  {p | ∃ v ∈ l, u.MetAt v p}

/-- The number of pairs of a segment of the list and a point inside of it where another one meets
it. -/
noncomputable def contacts (l : List (Segment K)) : ℕ :=
  (l.map fun u => (contactPoints l u).ncard).sum

end Orient
