import Verif.Spec.Linear
import Verif.Spec.Compound

/-! Points at which edges cross. -/

namespace Orient

variable {K : Type} [Field K] [LinearOrder K]

/-- The segment goes from the point `p` outside of the set `S`. -/
def Segment.LeavesAt (u : Segment K) (p : Point K) (S : Set (Point K)) : Prop :=
  ∃ a, a ≠ p ∧ (⟨p, a⟩ : Segment K).pts ⊆ u.pts ∧ ∀ x ∈ (⟨p, a⟩ : Segment K).pts, x ∈ S → x = p

/-- Inside of a segment of `G` and of a segment of `T` there is a common point at which one of the two
segments goes outside of the segments of the other list. -/
def EdgesCross (G T : List (Segment K)) : Prop :=
  ∃ u ∈ T, ∃ v ∈ G, ∃ p ∈ u.pts ∩ v.pts, ¬ u.IsEndpoint p ∧ ¬ v.IsEndpoint p ∧
    (u.LeavesAt p (segsPts G) ∨ v.LeavesAt p (segsPts T))

/-- A vertical or a horizontal line separates the sets, so their bounding boxes have no common points. -/
def BoxesApart (A B : Set (Point K)) : Prop :=
  (∀ p ∈ A, ∀ q ∈ B, p.x < q.x) ∨ (∀ p ∈ A, ∀ q ∈ B, q.x < p.x) ∨
    (∀ p ∈ A, ∀ q ∈ B, p.y < q.y) ∨ (∀ p ∈ A, ∀ q ∈ B, q.y < p.y)

/-- The answer about two areas: `OVERLAP` if edges cross (`X`), the relation of the interiors and the
boundaries otherwise. -/
def CompoundAnswer (X : Prop) (I B E I' B' E' : Set (Point K)) (r : Relation) : Prop :=
  (X → r = .overlap) ∧ (¬ X → CompoundRel I B E I' B' E' r)

/-- The answer about a linear geometry with the points `S` and an area: `CROSS` if edges cross (`X`),
`TOUCH` if they do not cross, the boundary is a part of `S` (`Y`) and `S` has inner and outer points, the
relation of `S` to the interior, the boundary and the exterior otherwise. -/
def LinearAnswer (X Y : Prop) (S I B E : Set (Point K)) (r : Relation) : Prop :=
  (X → r = .cross) ∧ (¬ X → Y → (S ∩ I).Nonempty → (S ∩ E).Nonempty → r = .touch) ∧
    (¬ X → ¬ (Y ∧ (S ∩ I).Nonempty ∧ (S ∩ E).Nonempty) → LinearCompoundRel S I B E r)

/-- The answer about a linear geometry with the points `S` which contains no boundary of an area: `CROSS`
if edges cross (`X`), the relation of `S` to the interior, the boundary and the exterior otherwise. -/
def CrossAnswer (X : Prop) (S I B E : Set (Point K)) (r : Relation) : Prop :=
  (X → r = .cross) ∧ (¬ X → LinearCompoundRel S I B E r)

/-- The answer about a linear geometry with the points `S` and a polygon with holes which are examined after
the border: `CROSS` if a crossing with the border or the holes is found (`X`), `ENCLOSED` if there is none
and `S` is a part of the boundary, but neither of the border nor of the holes (`Y`), the relation of `S` to
the interior, the boundary and the exterior otherwise. -/
def HoledAnswer (X Y : Prop) (S I B E : Set (Point K)) (r : Relation) : Prop :=
  (X → r = .cross) ∧ (¬ X → Y → r = .enclosed) ∧ (¬ X → ¬ Y → LinearCompoundRel S I B E r)

/-- Near to the point `p` the segment from `p` to `q` is in the exterior. -/
def Contour.Outwards (c : Contour K) (p q : Point K) : Prop :=
  ∃ t, 0 < t ∧ t ≤ 1 ∧ ∀ u, 0 < u → u ≤ t → lerp p q u ∈ c.exterior

/-- The point is a vertex, not the last one of the list, at which the contour does not turn to the left. -/
def Contour.NotLeft (c : Contour K) (w : Point K) : Prop :=
  c.vertices.getLast? ≠ some w ∧
    ∃ a b, ⟨a, w⟩ ∈ c.edgeList ∧ ⟨w, b⟩ ∈ c.edgeList ∧ ¬ 0 < cross a w b

/-- What is examined to tell a segment which touches a region from one which is enclosed: the first endpoint
which is not on the contour is outside, or both endpoints are on the contour and the segment goes
outwards from its end, or from its start if that is not a vertex at which the contour does not turn left. -/
def Contour.LooksOutside (c : Contour K) (s : Segment K) : Prop :=
  s.start ∈ c.exterior ∨ s.start ∈ c.pts ∧ (s.finish ∈ c.exterior ∨ s.finish ∈ c.pts ∧
    (c.Outwards s.finish s.start ∨ c.Outwards s.start s.finish ∧ ¬ c.NotLeft s.start))

/-- The answer about a segment with the points `S` and a region: `CROSS` if it crosses an edge or goes through a
vertex between the edges there (`X`), `COMPONENT` if it is a part of an edge (`Y`), `WITHIN` if it is in the
interior, `DISJOINT` if it is in the exterior, and `TOUCH` or `ENCLOSED` otherwise, depending on `O`. -/
def SegmentAnswer (X Y O : Prop) (S I B E : Set (Point K)) (r : Relation) : Prop :=
  (X → r = .cross) ∧ (Y → r = .component) ∧ (S ⊆ I → r = .within) ∧ (S ⊆ E → r = .disjoint) ∧
    (¬ X → ¬ Y → (S ∩ B).Nonempty → (O → r = .touch) ∧ (¬ O → r = .enclosed))

theorem CompoundAnswer.cases {X : Prop} {I B E I' B' E' : Set (Point K)} {r : Relation}
    (h : CompoundAnswer X I B E I' B' E' r) : CompoundRel I B E I' B' E' r ∨ (r = .overlap ∧ X) := by
  by_cases hX : X
  · exact .inr ⟨h.1 hX, hX⟩
  · exact .inl (h.2 hX)

theorem LinearAnswer.cases {X Y : Prop} {S I B E : Set (Point K)} {r : Relation}
    (h : LinearAnswer X Y S I B E r) : LinearCompoundRel S I B E r ∨
      (r = .touch ∧ ¬ X ∧ Y ∧ (S ∩ I).Nonempty ∧ (S ∩ E).Nonempty) ∨ (r = .cross ∧ X) := by
  by_cases hX : X
  · exact .inr (.inr ⟨h.1 hX, hX⟩)
  · by_cases hY : Y ∧ (S ∩ I).Nonempty ∧ (S ∩ E).Nonempty
    · exact .inr (.inl ⟨h.2.1 hX hY.1 hY.2.1 hY.2.2, hX, hY⟩)
    · exact .inl (h.2.2 hX hY)

end Orient
