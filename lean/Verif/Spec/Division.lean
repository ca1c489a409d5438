import Verif.Spec.Nodes
import Mathlib.Data.Int.Log
import Mathlib.Data.Rat.Floor

/-!
# Rounded quotients
-/

namespace Orient

/-- The nearest integer, of two the even one. -/
def halfEven (x : ℚ) : ℤ :=
  if x - ⌊x⌋ < 1 / 2 then ⌊x⌋ else if 1 / 2 < x - ⌊x⌋ then ⌊x⌋ + 1 else if ⌊x⌋ % 2 = 0 then ⌊x⌋ else ⌊x⌋ + 1

/-- The nearest number with the given number of significant bits; `toBits 53` is what IEEE 754 double precision does
with numbers which are neither too large nor too small for it. -/
def toBits (bits : ℕ) (x : ℚ) : ℚ :=
  halfEven (x / 2 ^ (Int.log 2 |x| + 1 - bits)) * 2 ^ (Int.log 2 |x| + 1 - bits)

/-- `round` has a relative error of at most `ε`. -/
def Rounds {K : Type} [Field K] [LinearOrder K] (round : K → K) (ε : K) : Prop := ∀ x, |round x - x| ≤ ε * |x|

/-- Points with integer coordinates. -/
def Integral {K : Type} [Field K] (N : Set (Point K)) : Prop := ∀ p ∈ N, ∃ x y : ℤ, p = ⟨x, y⟩

/-- Answers which are the same or `TOUCH` and `CROSS`. -/
def UpToCross (x y : Py Relation) : Prop :=
  x = y ∨ x = .ok .touch ∧ y = .ok .cross ∨ x = .ok .cross ∧ y = .ok .touch

end Orient
