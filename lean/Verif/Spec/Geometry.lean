import Verif.Model.Base
import Mathlib.Data.Set.Basic
import Mathlib.Data.Set.Subsingleton
import Mathlib.Data.List.Rotate

/-!
# Specification vocabulary: points, segments and contours as sets of points

Nothing here mentions the functions of the model.
-/

namespace Orient

variable {K : Type} [Field K] [LinearOrder K]

/-- The cross product of `a - v` and `b - v`: positive iff the turn from `a` to `b` around `v` is
counterclockwise. -/
def cross (v a b : Point K) : K := (a.x - v.x) * (b.y - v.y) - (a.y - v.y) * (b.x - v.x)

/-- The point which divides the way from `a` to `b` in the ratio `t : 1 - t`. -/
def lerp (a b : Point K) (t : K) : Point K := ⟨a.x + t * (b.x - a.x), a.y + t * (b.y - a.y)⟩

/-- The middle of two points. -/
def midpoint (a b : Point K) : Point K := lerp a b (1 / 2)

namespace Segment

/-- The set of points of a segment. -/
def pts (s : Segment K) : Set (Point K) := {p | ∃ t : K, 0 ≤ t ∧ t ≤ 1 ∧ p = lerp s.start s.finish t}

/-- A segment with different endpoints. -/
def Nondegenerate (s : Segment K) : Prop := s.start ≠ s.finish

/-- A point is an endpoint of the segment. -/
def IsEndpoint (s : Segment K) (p : Point K) : Prop := p = s.start ∨ p = s.finish

/-- The segment with the endpoints exchanged. -/
def reverse (s : Segment K) : Segment K := ⟨s.finish, s.start⟩

end Segment

/-- The union of the segments of a list. -/
def segsPts (l : List (Segment K)) : Set (Point K) := {p | ∃ s ∈ l, p ∈ s.pts}

/-- The edges of a contour: the `i`-th one joins vertex `i - 1` (cyclically) with vertex `i`. -/
def Contour.edgeList (c : Contour K) : List (Segment K) :=
  List.zipWith Segment.mk (c.vertices.rotate (c.vertices.length - 1)) c.vertices

/-- The set of points of a contour. -/
def Contour.pts (c : Contour K) : Set (Point K) := segsPts c.edgeList

/-- The relation of the segment `t` to the segment `g`, as a relation of sets of points. -/
def SegmentsRel (t g : Segment K) : Relation → Prop
  | .equal => t.pts = g.pts
  | .component => t.pts ⊂ g.pts
  | .composite => g.pts ⊂ t.pts
  | .overlap => ¬ t.pts ⊆ g.pts ∧ ¬ g.pts ⊆ t.pts ∧ (t.pts ∩ g.pts).Nontrivial
  | .cross => ∃ p, t.pts ∩ g.pts = {p} ∧ ¬ t.IsEndpoint p ∧ ¬ g.IsEndpoint p
  | .touch => ∃ p, t.pts ∩ g.pts = {p} ∧ (t.IsEndpoint p ∨ g.IsEndpoint p)
  | .disjoint => t.pts ∩ g.pts = ∅
  | _ => False

/-- A simple contour: at least three different vertices, and different edges meet at most at common
endpoints. -/
structure Contour.Simple (c : Contour K) : Prop where
  three : 3 ≤ c.vertices.length
  nodup : c.vertices.Nodup
  meet : c.edgeList.Pairwise (fun a b => ∀ p ∈ a.pts ∩ b.pts, a.IsEndpoint p ∧ b.IsEndpoint p)

/-- The least vertex `v` of a contour (in the lexicographic order) between its neighbours `p`, `q`. -/
def Contour.LeastCorner (c : Contour K) (p v q : Point K) : Prop :=
  ∃ k rest, c.vertices.rotate k = p :: v :: q :: rest ∧ ∀ w ∈ c.vertices, v ≤ w

/-- The same closed polyline: the lists of vertices differ by a rotation and possibly a reversal. -/
def Contour.SameCycle (c d : Contour K) : Prop :=
  ∃ k, c.vertices = d.vertices.rotate k ∨ c.vertices = (d.vertices.rotate k).reverse

/-- `b` is the bounding box of `S`. -/
structure IsBoxOf (b : Box K) (S : Set (Point K)) : Prop where
  minX_le : ∀ p ∈ S, b.minX ≤ p.x
  le_maxX : ∀ p ∈ S, p.x ≤ b.maxX
  minY_le : ∀ p ∈ S, b.minY ≤ p.y
  le_maxY : ∀ p ∈ S, p.y ≤ b.maxY
  minX_mem : ∃ p ∈ S, p.x = b.minX
  maxX_mem : ∃ p ∈ S, p.x = b.maxX
  minY_mem : ∃ p ∈ S, p.y = b.minY
  maxY_mem : ∃ p ∈ S, p.y = b.maxY

end Orient
