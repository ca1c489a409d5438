import Verif.Spec.Geometry
import Mathlib.Data.List.Count
import Mathlib.Algebra.Group.Nat.Even

/-! The even-odd rule, independently of the model. -/

namespace Orient

variable {K : Type} [Field K] [LinearOrder K]

/-- The ray from `p` with direction `d`. -/
def ray (p d : Point K) : Set (Point K) := {q | ∃ t : K, 0 ≤ t ∧ q = ⟨p.x + t * d.x, p.y + t * d.y⟩}

/-- `d` is a direction: not the zero vector. -/
def IsDirection (d : Point K) : Prop := d.x ≠ 0 ∨ d.y ≠ 0

/-- The ray from `p` with direction `d` avoids the vertices of the contour. -/
def AvoidsVertices (c : Contour K) (p d : Point K) : Prop := ∀ v ∈ c.vertices, v ∉ ray p d

open Classical in
/-- The number of edges of a contour which meet a set. -/
noncomputable def edgesMeeting (c : Contour K) (S : Set (Point K)) : Nat :=
  c.edgeList.countP (fun e => decide (e.pts ∩ S).Nonempty)

/-- The location of a point with respect to the region bounded by a contour, as a relation:
the even-odd rule for all rays which avoid the vertices. -/
def Locates (c : Contour K) (p : Point K) : Location → Prop
  | .boundary => p ∈ c.pts
  | .interior => p ∉ c.pts ∧ ∀ d, IsDirection d → AvoidsVertices c p d → Odd (edgesMeeting c (ray p d))
  | .exterior => p ∉ c.pts ∧ ∀ d, IsDirection d → AvoidsVertices c p d → Even (edgesMeeting c (ray p d))

end Orient
