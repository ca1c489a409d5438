import Verif.Spec.EvenOdd
import Verif.Spec.Linear

/-! # Specification of relations with regions

Nothing here mentions the functions of the model. -/

namespace Orient

variable {K : Type} [Field K] [LinearOrder K]

/-- The points inside of a contour. -/
def Contour.interior (c : Contour K) : Set (Point K) := {p | Locates c p .interior}

/-- The points outside of a contour. -/
def Contour.exterior (c : Contour K) : Set (Point K) := {p | Locates c p .exterior}

/-- The relation of a set of points `S` to a geometry with the interior `I`, the boundary `B` and the
exterior `E`. -/
def LinearCompoundRel (S I B E : Set (Point K)) : Relation → Prop
  | .disjoint => S ⊆ E
  | .within => S ⊆ I
  | .component => S ⊆ B
  | .enclosed => S ∩ E = ∅ ∧ (S ∩ I).Nonempty ∧ (S ∩ B).Nonempty
  | .touch => S ∩ I = ∅ ∧ (S ∩ E).Nonempty ∧ (S ∩ B).Nonempty
  | .cross => (S ∩ I).Nonempty ∧ (S ∩ E).Nonempty
  | _ => False

/-- The relation of a geometry with the interior `I`, the boundary `B` and the exterior `E` to one with
the interior `I'`, the boundary `B'` and the exterior `E'`. -/
def CompoundRel (I B E I' B' E' : Set (Point K)) : Relation → Prop
  | .disjoint => (I ∪ B) ∩ (I' ∪ B') = ∅
  | .touch => (B ∩ B').Nonempty ∧ (I ∪ B) ∩ (I' ∪ B') ⊆ B ∩ B'
  | .overlap => (I ∩ I').Nonempty ∧ (I ∩ E').Nonempty ∧ (E ∩ I').Nonempty
  | .equal => I = I' ∧ B = B'
  | .within => I ∪ B ⊆ I'
  | .cover => I' ∪ B' ⊆ I
  | .component => I ⊆ I' ∧ B ⊆ B' ∧ (E ∩ I').Nonempty
  | .composite => I' ⊆ I ∧ B' ⊆ B ∧ (I ∩ E').Nonempty
  | .enclosed => I ⊆ I' ∧ B ⊆ I' ∪ B' ∧ (B ∩ I').Nonempty ∧ (B ∩ B').Nonempty
  | .encloses => I' ⊆ I ∧ B' ⊆ I ∪ B ∧ (B' ∩ I).Nonempty ∧ (B ∩ B').Nonempty
  | .cross => False

/-- The relation of two closed curves: `CROSS` means that the first one goes from one side of the second
one to the other. -/
def ContoursRel (a b : Contour K) : Relation → Prop
  | .equal => a.pts = b.pts
  | .overlap => a.pts ≠ b.pts ∧ SharesPiece a.pts b.pts
  | .cross => ¬ SharesPiece a.pts b.pts ∧ (a.pts ∩ b.interior).Nonempty ∧ (a.pts ∩ b.exterior).Nonempty
  | .touch => ¬ SharesPiece a.pts b.pts ∧ (a.pts ∩ b.pts).Nonempty ∧
      ¬ ((a.pts ∩ b.interior).Nonempty ∧ (a.pts ∩ b.exterior).Nonempty)
  | .disjoint => a.pts ∩ b.pts = ∅
  | _ => False

end Orient
