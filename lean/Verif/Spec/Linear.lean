import Verif.Spec.Geometry
import Mathlib.Data.List.Pairwise

/-! # Specification of relations between linear geometries

Nothing here mentions the functions of the model. -/

namespace Orient

variable {K : Type} [Field K] [LinearOrder K]

/-- Segments of one geometry: non-degenerate, and different ones share at most one point. -/
def SegmentsValid (l : List (Segment K)) : Prop :=
  (∀ s ∈ l, s.Nondegenerate) ∧ l.Pairwise (fun a b => (a.pts ∩ b.pts).Subsingleton)

/-- Segments which meet each other only in common endpoints. -/
def Neat (l : List (Segment K)) : Prop :=
  l.Pairwise fun u v => ∀ p ∈ u.pts ∩ v.pts, u.IsEndpoint p ∧ v.IsEndpoint p

/-- Two sets have a non-degenerate segment in common. -/
def SharesPiece (S T : Set (Point K)) : Prop :=
  ∃ u : Segment K, u.Nondegenerate ∧ u.pts ⊆ S ∧ u.pts ⊆ T

/-- From an inner point of the segment `s` the set `M` goes to both sides of `s`. -/
def Segment.CrossedBy (s : Segment K) (M : Set (Point K)) : Prop :=
  ∃ p a b : Point K, p ∈ s.pts ∧ ¬ s.IsEndpoint p ∧
    (⟨p, a⟩ : Segment K).pts ⊆ M ∧ (⟨p, b⟩ : Segment K).pts ⊆ M ∧
    0 < cross s.start s.finish a ∧ cross s.start s.finish b < 0

/-- The relation of a segment to a linear set of points. -/
def LinearRel (s : Segment K) (M : Set (Point K)) : Relation → Prop
  | .equal => s.pts = M
  | .component => s.pts ⊂ M
  | .composite => M ⊂ s.pts
  | .overlap => ¬ s.pts ⊆ M ∧ ¬ M ⊆ s.pts ∧ SharesPiece s.pts M
  | .cross => ¬ SharesPiece s.pts M ∧ s.CrossedBy M
  | .touch => ¬ SharesPiece s.pts M ∧ ¬ s.CrossedBy M ∧ (s.pts ∩ M).Nonempty
  | .disjoint => s.pts ∩ M = ∅
  | _ => False

/-- The relation of a segment to a contour: whole edges are distinguished. -/
def ContourRel (s : Segment K) (c : Contour K) : Relation → Prop
  | .component => ∃ e ∈ c.edgeList, s.pts ⊆ e.pts
  | .overlap => (¬ ∃ e ∈ c.edgeList, s.pts ⊆ e.pts) ∧ SharesPiece s.pts c.pts
  | .cross => ¬ SharesPiece s.pts c.pts ∧ s.CrossedBy c.pts
  | .touch => ¬ SharesPiece s.pts c.pts ∧ ¬ s.CrossedBy c.pts ∧ (s.pts ∩ c.pts).Nonempty
  | .disjoint => s.pts ∩ c.pts = ∅
  | _ => False

/-- The relation of two linear sets of points; `TOUCH` and `CROSS` are not told apart. -/
def SetsRel (S T : Set (Point K)) : Relation → Prop
  | .equal => S = T
  | .component => S ⊂ T
  | .composite => T ⊂ S
  | .overlap => ¬ S ⊆ T ∧ ¬ T ⊆ S ∧ SharesPiece S T
  | .cross | .touch => (S ∩ T).Nonempty ∧ ¬ SharesPiece S T
  | .disjoint => S ∩ T = ∅
  | _ => False

/-- `x` lies strictly inside of the angle which is swept counterclockwise from the ray `p a` to the
ray `p b`, which have different directions. -/
def InAngle (p a b x : Point K) : Prop :=
  if cross p a b < 0 then 0 < cross p a x ∨ 0 < cross p x b else 0 < cross p a x ∧ 0 < cross p x b

/-- At the point `p` two directions of `T` separate two directions of `S`. -/
def CrossesAt (S T : Set (Point K)) (p : Point K) : Prop :=
  ∃ a b u v : Point K, (⟨p, a⟩ : Segment K).pts ⊆ S ∧ (⟨p, b⟩ : Segment K).pts ⊆ S ∧
    (⟨p, u⟩ : Segment K).pts ⊆ T ∧ (⟨p, v⟩ : Segment K).pts ⊆ T ∧ InAngle p a b u ∧ InAngle p b a v

/-- No three consecutive vertices of the contour are collinear. -/
def Contour.StrictCorners (c : Contour K) : Prop :=
  ∀ p v q, ⟨p, v⟩ ∈ c.edgeList → ⟨v, q⟩ ∈ c.edgeList → cross p v q ≠ 0

end Orient
