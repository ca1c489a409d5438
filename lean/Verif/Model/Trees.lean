import Verif.Model.Containers

/-!
Containers made of binary trees.

Neither `prioq` nor `dendroid` is part of the repository.  `heap` is a binary heap of linked nodes;
`searchTree` is a search tree whose nodes carry anything (such as the colours of a red-black tree) and
which is restructured in any way after additions and removals.
-/

namespace Orient

/-- A binary heap. -/
inductive Heap where
  | nil
  | node (event : Ev) (left right : Heap)

namespace Heap

def peek : Heap → Option Ev
  | nil => none
  | node event _ _ => some event

/-- The greater one of the event and the root goes down, the subtrees change sides. -/
def push (lt : Ev → Ev → Bool) : Ev → Heap → Heap
  | event, nil => node event nil nil
  | event, node root left right =>
    if lt event root then node event (push lt root right) left
    else node root (push lt event right) left

/-- The hole at the root goes down along the lesser children. -/
def pop (lt : Ev → Ev → Bool) : Heap → Heap
  | nil => nil
  | node _ left right =>
    match left.peek, right.peek with
    | none, _ => right
    | _, none => left
    | some a, some b =>
      if lt a b then node a (pop lt left) right else node b left (pop lt right)

def items : Heap → List Ev
  | nil => []
  | node event left right => event :: (items left ++ items right)

/-- No event is less than the one above it. -/
def Ordered (lt : Ev → Ev → Bool) : Heap → Prop
  | nil => True
  | node event left right =>
    (∀ e ∈ items left ++ items right, e ≠ event → lt event e = true) ∧ Ordered lt left ∧
      Ordered lt right

end Heap

/-- A priority queue. -/
def heap : PriorityQueue Heap := ⟨.nil, Heap.push, Heap.peek, Heap.pop⟩

/-- A search tree with something at each of its nodes. -/
inductive Tree (C : Type) where
  | nil
  | node (mark : C) (left : Tree C) (event : Nat) (right : Tree C)

namespace Tree

variable {C : Type}

def inorder : Tree C → List Nat
  | nil => []
  | node _ left event right => inorder left ++ event :: inorder right

def contains (lt : Nat → Nat → Bool) (event : Nat) : Tree C → Bool
  | nil => false
  | node _ left root right =>
    if lt event root then contains lt event left
    else if lt root event then contains lt event right
    else true

def add (mark : C) (lt : Nat → Nat → Bool) (event : Nat) : Tree C → Tree C
  | nil => node mark nil event nil
  | node mark' left root right =>
    if lt event root then node mark' (add mark lt event left) root right
    else if lt root event then node mark' left root (add mark lt event right)
    else node mark' left root right

/-- The tree with the other one at its leftmost place. -/
def attach (other : Tree C) : Tree C → Tree C
  | nil => other
  | node mark left root right => node mark (attach other left) root right

def remove (lt : Nat → Nat → Bool) (event : Nat) : Tree C → Tree C
  | nil => nil
  | node mark left root right =>
    if lt event root then node mark (remove lt event left) root right
    else if lt root event then node mark left root (remove lt event right)
    else attach left right

def next (lt : Nat → Nat → Bool) (event : Nat) : Tree C → Option Nat
  | nil => none
  | node _ left root right =>
    if lt event root then some ((next lt event left).getD root) else next lt event right

def prev (lt : Nat → Nat → Bool) (event : Nat) : Tree C → Option Nat
  | nil => none
  | node _ left root right =>
    if lt root event then some ((prev lt event right).getD root) else prev lt event left

end Tree

/-- A sorted set; `added` and `removed` restructure the tree. -/
def searchTree {C : Type} (mark : C) (added removed : Nat → Tree C → Tree C) :
    SortedSet (Tree C) where
  empty := .nil
  contains := Tree.contains
  add lt event tree := added event (tree.add mark lt event)
  remove lt event tree := removed event (tree.remove lt event)
  next := Tree.next
  prev := Tree.prev

end Orient
