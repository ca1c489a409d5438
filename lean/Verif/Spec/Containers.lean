import Verif.Model.Containers

/-!
# The contract of the containers

What is expected of a priority queue and of a sorted set whose elements are mutable: they are only
correct as long as the comparison is a strict total order of the stored elements, and as long as
mutations do not change how stored elements compare with each other.  An element is never compared
with itself by a priority queue.
-/

namespace Orient

/-- A strict total order of the different elements of the list. -/
structure StrictOn {α : Type} (lt : α → α → Bool) (l : List α) : Prop where
  total : ∀ a ∈ l, ∀ b ∈ l, a ≠ b → lt a b = !lt b a
  trans : ∀ a ∈ l, ∀ b ∈ l, ∀ c ∈ l, a ≠ b → b ≠ c → a ≠ c → lt a b = true → lt b c = true →
    lt a c = true

/-- The contract of a priority queue; `items` are the stored elements and `ordered` is the invariant
which depends on the comparison (of a binary heap: no element is less than its parent). -/
structure PriorityQueue.Correct {Q : Type} (H : PriorityQueue Q) (items : Q → List Ev)
    (ordered : (Ev → Ev → Bool) → Q → Prop) : Prop where
  empty : items H.empty = [] ∧ ∀ lt, ordered lt H.empty
  /-- only comparisons of different stored elements matter -/
  congr : ∀ lt lt' q, ordered lt q →
    (∀ a ∈ items q, ∀ b ∈ items q, a ≠ b → lt' a b = lt a b) → ordered lt' q
  push : ∀ lt q e, ordered lt q → (e :: items q).Nodup → StrictOn lt (e :: items q) →
    (items (H.push lt e q)).Perm (e :: items q) ∧ ordered lt (H.push lt e q)
  /-- the queue is falsy only if nothing is stored -/
  peek_none : ∀ lt q, ordered lt q → (items q).Nodup → StrictOn lt (items q) → H.peek q = none →
    items q = []
  /-- otherwise the least element is found -/
  peek_some : ∀ lt q e, ordered lt q → (items q).Nodup → StrictOn lt (items q) →
    H.peek q = some e → e ∈ items q ∧ ∀ e' ∈ items q, e' ≠ e → lt e e' = true
  /-- and removed -/
  pop : ∀ lt q e, ordered lt q → (items q).Nodup → StrictOn lt (items q) → H.peek q = some e →
    (items (H.pop lt q)).Perm ((items q).erase e) ∧ ordered lt (H.pop lt q)

/-- The list is increasing. -/
structure Increasing (lt : Nat → Nat → Bool) (l : List Nat) : Prop where
  irrefl : ∀ a ∈ l, lt a a = false
  pairwise : l.Pairwise fun a b => lt a b = true ∧ lt b a = false

/-- The contract of a sorted set; `items` are the stored elements in their order. -/
structure SortedSet.Correct {S : Type} (Z : SortedSet S) (items : S → List Nat) : Prop where
  empty : items Z.empty = []
  contains : ∀ lt z l₁ e l₂, items z = l₁ ++ e :: l₂ → Increasing lt (l₁ ++ e :: l₂) →
    Z.contains lt e z = true
  /-- a new element is put at its place -/
  add : ∀ lt z l₁ e l₂, items z = l₁ ++ l₂ → Increasing lt (l₁ ++ e :: l₂) →
    items (Z.add lt e z) = l₁ ++ e :: l₂
  remove : ∀ lt z l₁ e l₂, items z = l₁ ++ e :: l₂ → Increasing lt (l₁ ++ e :: l₂) →
    items (Z.remove lt e z) = l₁ ++ l₂
  next : ∀ lt z l₁ e l₂, items z = l₁ ++ e :: l₂ → Increasing lt (l₁ ++ e :: l₂) →
    Z.next lt e z = l₂.head?
  prev : ∀ lt z l₁ e l₂, items z = l₁ ++ e :: l₂ → Increasing lt (l₁ ++ e :: l₂) →
    Z.prev lt e z = l₁.getLast?

end Orient
