import Verif.Spec.Misread

/-! What `segment_in_polygon` answers. -/

namespace Orient

variable {K : Type} [Field K] [LinearOrder K]

/-- The answer about a segment with the points `S` and a polygon. The interior, the boundary and the exterior of the
border are `I`, `B` and `E`, those of the holes `I'`, `B'` and `E'`. `X` says that the segment crosses the border, `Y` that
it is a part of an edge of the border, `O` that it looks as if it went outwards, `H` that it crosses edges of holes. -/
def HoledSegmentAnswer (X Y O H : Prop) (S I B E I' B' E' : Set (Point K)) (r : Relation) : Prop :=
  (X → r = .cross) ∧ (Y → r = .component) ∧ (S ⊆ E → r = .disjoint) ∧
  (¬ X → ¬ Y → (S ∩ B).Nonempty → O → r = .touch) ∧
  (¬ X → ¬ Y → S ⊆ I ∨ (S ∩ B).Nonempty ∧ ¬ O →
    (H ∨ (S ∩ I').Nonempty ∧ (S ∩ E').Nonempty → r = .cross) ∧
    (¬ H →
      (S ⊆ I' → r = .disjoint) ∧
      (S ∩ E' = ∅ → (S ∩ I').Nonempty → (S ∩ B').Nonempty → r = .touch) ∧
      (S ⊆ B' → r = .component) ∧
      (S ∩ I' = ∅ → (S ∩ E').Nonempty → (S ∩ B').Nonempty → r = .enclosed) ∧
      (S ⊆ E' → (S ⊆ I → r = .within) ∧ (¬ S ⊆ I → r = .enclosed))))

end Orient
