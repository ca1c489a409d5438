import Verif.Spec.Linear

/-! # Directions in which a set of points is left

Nothing here mentions the functions of the model. -/

namespace Orient

variable {K : Type} [Field K] [LinearOrder K]

/-- The directions from `p` to `a` and to `b` are equal. -/
def SameRay (p a b : Point K) : Prop := ∃ k, 0 < k ∧ b = lerp p a k

/-- From the point `p` at most two directions run in the set `T`. -/
def AtMostTwoWays (T : Set (Point K)) (p : Point K) : Prop :=
  ∀ a b c : Point K, a ≠ p → b ≠ p → c ≠ p → (⟨p, a⟩ : Segment K).pts ⊆ T →
    (⟨p, b⟩ : Segment K).pts ⊆ T → (⟨p, c⟩ : Segment K).pts ⊆ T →
    SharesPiece (⟨p, a⟩ : Segment K).pts (⟨p, b⟩ : Segment K).pts ∨
    SharesPiece (⟨p, a⟩ : Segment K).pts (⟨p, c⟩ : Segment K).pts ∨
    SharesPiece (⟨p, b⟩ : Segment K).pts (⟨p, c⟩ : Segment K).pts

end Orient
