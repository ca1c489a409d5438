import Verif.Spec.Ways

/-! # Crossings at the widest angle

What `multisegment_in_multisegment` takes for a crossing at a point where more than two directions of
the second operand meet: the directions of the first operand are compared with two directions of the
second one only, those of the widest angle.  "Widest" is relative to the direction met first by a
vertical line which moves to the right.  Nothing here mentions the functions of the model. -/

namespace Orient

variable {K : Type} [Field K] [LinearOrder K]

/-- The way from `p` to `a` is in the set `T`. -/
def Way (T : Set (Point K)) (p a : Point K) : Prop := a ≠ p ∧ (⟨p, a⟩ : Segment K).pts ⊆ T

/-- Seen from `p`, `a` is left of `b`, or both of them are on one side and `a` is lower. -/
def SweptBefore (p a b : Point K) : Prop :=
  (a < p ∧ p < b) ∨ (a < p ∧ b < p ∧ cross p a b < 0) ∨ (p < a ∧ p < b ∧ 0 < cross p a b)

/-- A segment begins at `p`, its leftmost point, and goes to `a`. -/
def Begins (l : List (Segment K)) (p a : Point K) : Prop :=
  ∃ w ∈ l, IsLeast w.pts p ∧ ∃ x ∈ w.pts, x ≠ p ∧ SameRay p x a

/-- Only one of the segments comes from the left to `p`, and goes on; the lowest one of those which
begin at `p` goes to `a`. -/
def Jumps (l : List (Segment K)) (p a : Point K) : Prop :=
  (∃ v ∈ l, (p ∈ v.pts ∧ ¬ v.IsEndpoint p) ∧
      ∀ w ∈ l, p ∈ w.pts → w.pts = v.pts ∨ IsLeast w.pts p) ∧
    Begins l p a ∧ ∀ b, Begins l p b → ¬ SweptBefore p b a

/-- Of two directions at `p` the one which is met first: from left to right and upwards, but the lowest
of the segments which begin at `p` precedes all others if there is just one segment on the left and it
goes on. -/
def MetBefore (l : List (Segment K)) (p a b : Point K) : Prop :=
  ¬ Jumps l p b ∧ (Jumps l p a ∨ SweptBefore p a b)

/-- The square of the cosine of the angle between the directions from `p` to `g` and to `a`, with the
sign of the cosine, and multiplied by the square of the distance of `g`. -/
def signedCosine (p g a : Point K) : K :=
  let d := (g.x - p.x) * (a.x - p.x) + (g.y - p.y) * (a.y - p.y)
  (if 0 < d then 1 else -1) * (d * d)
    / ((a.x - p.x) * (a.x - p.x) + (a.y - p.y) * (a.y - p.y))

/-- The direction of `T` at `p` which is met first. -/
def FirstWay (l : List (Segment K)) (T : Set (Point K)) (p a : Point K) : Prop :=
  Way T p a ∧ ∀ b, Way T p b → SameRay p a b ∨ MetBefore l p a b

/-- The direction of `T` at `p` with the widest angle to `g`, the first one of these. -/
def WidestWay (l : List (Segment K)) (T : Set (Point K)) (p g a : Point K) : Prop :=
  Way T p a ∧ ∀ b, Way T p b → signedCosine p g a < signedCosine p g b ∨
    (signedCosine p g a = signedCosine p g b ∧ (SameRay p a b ∨ MetBefore l p a b))

/-- Two directions of `S` at `p` are separated by the direction `g` of `T` with the widest angle to the
first direction, and the one with the widest angle to `g`. -/
def WidelyCrossesAt (l : List (Segment K)) (S T : Set (Point K)) (p : Point K) : Prop :=
  ∃ d g h x y, FirstWay l T p d ∧ WidestWay l T p d g ∧ WidestWay l T p g h ∧ Way S p x ∧ Way S p y ∧
    InAngle p g h x ∧ InAngle p h g y

/-- Segments of the two lists have a common inner point, or there is a crossing at a widest angle. -/
def WidelyCross (a b : List (Segment K)) : Prop :=
  ∃ p, (∃ u ∈ a, ∃ v ∈ b, (p ∈ u.pts ∧ ¬ u.IsEndpoint p) ∧ p ∈ v.pts ∧ ¬ v.IsEndpoint p) ∨
    WidelyCrossesAt (a ++ b) (segsPts a) (segsPts b) p

/-- The answers about two multisegments. -/
def MultisegmentsRel (a b : List (Segment K)) : Relation → Prop
  | .equal => segsPts a = segsPts b
  | .component => segsPts a ⊂ segsPts b
  | .composite => segsPts b ⊂ segsPts a
  | .overlap => ¬ segsPts a ⊆ segsPts b ∧ ¬ segsPts b ⊆ segsPts a ∧ SharesPiece (segsPts a) (segsPts b)
  | .cross => ¬ SharesPiece (segsPts a) (segsPts b) ∧ WidelyCross a b
  | .touch => ¬ SharesPiece (segsPts a) (segsPts b) ∧ (segsPts a ∩ segsPts b).Nonempty ∧
      ¬ WidelyCross a b
  | .disjoint => segsPts a ∩ segsPts b = ∅
  | _ => False

end Orient
