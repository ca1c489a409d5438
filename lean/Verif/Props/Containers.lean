import Verif.Lemmas.Sweep.Containers
import Verif.Lemmas.Sweep.Trees
import Verif.Props.Sweeping
import Verif.Props.MultiCheck

/-! C69: answers do not depend on the containers. -/

set_option linter.unusedSectionVars false

namespace Orient.Props

open eventsQueue State Segment

variable {K Q S : Type} [Field K] [LinearOrder K] [IsStrictOrderedRing K]

/-- The segments registered for an operand. -/
def operandSegments (fromTest : Bool) (registered : List (Bool × List (SegmentEndpoints K))) :
    List (Segment K) :=
  (registered.filter fun r => r.1 = fromTest).flatMap fun r => r.2.map fun e => ⟨e.1, e.2⟩

theorem registered_all (registered : List (Bool × List (SegmentEndpoints K))) {s : State K}
    {G T : List (Segment K)} (h : Registered s G T)
    (hG : ∀ u ∈ operandSegments false registered, u.Nondegenerate)
    (hT : ∀ u ∈ operandSegments true registered, u.Nondegenerate) :
    Registered (registered.foldl (fun s r => s.register r.1 r.2) s)
      (G ++ operandSegments false registered) (T ++ operandSegments true registered) := by
  induction registered generalizing s G T with
  | nil => simpa [operandSegments] using h
  | cons r l ih =>
    obtain ⟨b, es⟩ := r
    cases b with
    | false =>
      have e1 : operandSegments false ((false, es) :: l) =
        es.map ofEndpoints ++ operandSegments false l := rfl
      have e2 : operandSegments true ((false, es) :: l) = operandSegments true l := by
        simp [operandSegments]
      rw [e1] at hG
      rw [e2] at hT
      rw [e1, e2, ← List.append_assoc]
      exact ih (h.addGoal (Matches.refl es) fun u hu => hG u (List.mem_append_left _ hu))
        (fun u hu => hG u (List.mem_append_right _ hu)) hT
    | true =>
      have e1 : operandSegments true ((true, es) :: l) =
        es.map ofEndpoints ++ operandSegments true l := rfl
      have e2 : operandSegments false ((true, es) :: l) = operandSegments false l := by
        simp [operandSegments]
      rw [e1] at hT
      rw [e2] at hG
      rw [e1, e2, ← List.append_assoc]
      exact ih (h.addTest (Matches.refl es) fun u hu => hT u (List.mem_append_left _ hu)) hG
        (fun u hu => hT u (List.mem_append_right _ hu))

theorem machine_registered {H : PriorityQueue Q} {items : Q → List Ev}
    {ordered : (Ev → Ev → Bool) → Q → Prop} (hH : H.Correct items ordered) {context : Context K}
    (hc : context.Exact) (registered : List (Bool × List (SegmentEndpoints K))) {m : Machine K Q}
    (hg : m.Good items ordered context) {G T : List (Segment K)} (h : Registered m.state G T)
    (hG : SegmentsValid (G ++ operandSegments false registered))
    (hT : SegmentsValid (T ++ operandSegments true registered)) :
    (registered.foldl (fun m r => m.register H context r.1 r.2) m).Good items ordered context ∧
      (registered.foldl (fun m r => m.register H context r.1 r.2) m).state =
        registered.foldl (fun s r => s.register r.1 r.2) m.state := by
  induction registered generalizing m G T with
  | nil => exact ⟨hg, rfl⟩
  | cons r l ih =>
    obtain ⟨b, es⟩ := r
    rw [List.foldl_cons, List.foldl_cons]
    have hst := Machine.register_state (H := H) (context := context) m b es
    cases b with
    | false =>
      have e1 : operandSegments false ((false, es) :: l) =
        es.map ofEndpoints ++ operandSegments false l := rfl
      have e2 : operandSegments true ((false, es) :: l) = operandSegments true l := by
        simp [operandSegments]
      rw [e1, ← List.append_assoc] at hG
      rw [e2] at hT
      have hn : ∀ u ∈ es.map ofEndpoints, u.Nondegenerate := fun u hu => hG.1 u (by simp [hu])
      have h' := h.addGoal (Matches.refl es) hn
      have hcl := h'.no_clash ⟨fun u hu => hG.1 u (List.mem_append_left _ hu),
        (List.pairwise_append.mp hG.2).1⟩ ⟨fun u hu => hT.1 u (List.mem_append_left _ hu),
        (List.pairwise_append.mp hT.2).1⟩
      have g' := hg.register hH hc h.fresh ((Matches.refl es).ne hn) hcl
      have := ih (m := m.register H context false es) g' (hst ▸ h') hG hT
      rw [hst] at this
      exact this
    | true =>
      have e1 : operandSegments true ((true, es) :: l) =
        es.map ofEndpoints ++ operandSegments true l := rfl
      have e2 : operandSegments false ((true, es) :: l) = operandSegments false l := by
        simp [operandSegments]
      rw [e1, ← List.append_assoc] at hT
      rw [e2] at hG
      have hn : ∀ u ∈ es.map ofEndpoints, u.Nondegenerate := fun u hu => hT.1 u (by simp [hu])
      have h' := h.addTest (Matches.refl es) hn
      have hcl := h'.no_clash ⟨fun u hu => hG.1 u (List.mem_append_left _ hu),
        (List.pairwise_append.mp hG.2).1⟩ ⟨fun u hu => hT.1 u (List.mem_append_left _ hu),
        (List.pairwise_append.mp hT.2).1⟩
      have g' := hg.register hH hc h.fresh ((Matches.refl es).ne hn) hcl
      have := ih (m := m.register H context true es) g' (hst ▸ h') hG hT
      rw [hst] at this
      exact this

/-- C69: over any correct priority queue and any correct sorted set a sweep emits the same events in
the same order, in the same condition, and ends in the same way, provided that the segments of each
operand do not overlap each other. -/
theorem C69 {H : PriorityQueue Q} {items : Q → List Ev} {ordered : (Ev → Ev → Bool) → Q → Prop}
    (hH : H.Correct items ordered) {Z : SortedSet S} {elements : S → List Nat}
    (hZ : Z.Correct elements) {context : Context K} (hc : context.Exact) (linear : Bool) (stopX : K)
    (registered : List (Bool × List (SegmentEndpoints K)))
    (hG : SegmentsValid (operandSegments false registered))
    (hT : SegmentsValid (operandSegments true registered)) :
    Machine.sweep H context Z linear stopX
      (registered.foldl (fun m r => m.register H context r.1 r.2) (Machine.empty H)) =
    sweep linear context stopX
      (registered.foldl (fun s r => s.register r.1 r.2) State.empty) := by
  obtain ⟨g, e⟩ := machine_registered hH hc registered (m := Machine.empty H) (.empty hH)
    (G := []) (T := []) Registered.empty hG hT
  have h := registered_all registered Registered.empty hG.1 hT.1
  rw [← show (registered.foldl (fun m r => m.register H context r.1 r.2) (Machine.empty H)).state =
    registered.foldl (fun s r => s.register r.1 r.2) State.empty from e] at h ⊢
  exact Machine.sweep_follows hH hZ hc linear stopX g h.fresh (h.no_clash hG hT)

/-- C69: the answers for the operands registered one after the other. -/
theorem C69_answers {H : PriorityQueue Q} {items : Q → List Ev}
    {ordered : (Ev → Ev → Bool) → Q → Prop} (hH : H.Correct items ordered) {Z : SortedSet S}
    {elements : S → List Nat} (hZ : Z.Correct elements) {context : Context K} (hc : context.Exact)
    (stopX : K) {goal test : List (SegmentEndpoints K)}
    (hG : SegmentsValid (goal.map fun e => (⟨e.1, e.2⟩ : Segment K)))
    (hT : SegmentsValid (test.map fun e => (⟨e.1, e.2⟩ : Segment K))) :
    let m := ((Machine.empty H).register H context false goal).register H context true test
    let s := (State.empty.register false goal).register true test
    processing.processOpenLinearQueue context (Machine.sweep H context Z true stopX m) =
        runOpenLinear context s stopX ∧
      processing.processClosedLinearQueue context (Machine.sweep H context Z false stopX m) =
        runClosedLinear context s stopX ∧
      processing.processLinearCompoundQueue context (Machine.sweep H context Z false stopX m) =
        runLinearCompound context s stopX ∧
      processing.processCompoundQueue context (Machine.sweep H context Z false stopX m) =
        runCompound context s stopX := by
  have key := fun linear => C69 hH hZ hc linear stopX [(false, goal), (true, test)]
    (by simpa [operandSegments] using hG) (by simpa [operandSegments] using hT)
  simp only [List.foldl_cons, List.foldl_nil] at key
  simp only [key, runOpenLinear, runClosedLinear, runLinearCompound, runCompound, and_self]

/-- C69: in particular with a binary heap and a search tree which is restructured in any way that keeps
the order of its elements. -/
theorem C69_trees {C : Type} (mark : C) {added removed : Nat → Tree C → Tree C}
    (h1 : ∀ e t, (added e t).inorder = t.inorder) (h2 : ∀ e t, (removed e t).inorder = t.inorder)
    {context : Context K} (hc : context.Exact) (linear : Bool) (stopX : K)
    (registered : List (Bool × List (SegmentEndpoints K)))
    (hG : SegmentsValid (operandSegments false registered))
    (hT : SegmentsValid (operandSegments true registered)) :
    Machine.sweep heap context (searchTree mark added removed) linear stopX
      (registered.foldl (fun m r => m.register heap context r.1 r.2) (Machine.empty heap)) =
    sweep linear context stopX
      (registered.foldl (fun s r => s.register r.1 r.2) State.empty) :=
  C69 heap_correct (searchTree_correct mark h1 h2) hc linear stopX registered hG hT

/-- A rotation at the root. -/
def rotated : Tree Bool → Tree Bool
  | .node c (.node d l x m) y r => .node d l x (.node c m y r)
  | t => t

theorem rotated_inorder (t : Tree Bool) : (rotated t).inorder = t.inorder := by
  unfold rotated
  split
  · simp [Tree.inorder]
  · rfl

/-- The segments registered in the example. -/
def containersExample : List (Bool × List (SegmentEndpoints ℚ)) :=
  [(false, [(⟨0, 0⟩, ⟨4, 0⟩), (⟨4, 0⟩, ⟨0, 4⟩), (⟨0, 4⟩, ⟨0, 0⟩)]),
   (true, [(⟨1, 0⟩, ⟨5, 0⟩), (⟨1, -1⟩, ⟨3, 3⟩)])]

/-- The edges of a triangle and two segments, of which one runs along an edge and the other crosses two
edges; the tree is rotated at its root after each change. -/
theorem C69_example :
    SegmentsValid (operandSegments false containersExample) ∧
      SegmentsValid (operandSegments true containersExample) ∧
      (Machine.sweep heap (reference.context : Context ℚ)
        (searchTree false (fun _ => rotated) (fun _ => rotated)) false 4
        (containersExample.foldl (fun m r => m.register heap reference.context r.1 r.2)
          (Machine.empty heap))).1.length = 23 ∧
      sweep false (reference.context : Context ℚ) 4
          (containersExample.foldl (fun s r => s.register r.1 r.2) State.empty) =
        Machine.sweep heap reference.context
          (searchTree false (fun _ => rotated) (fun _ => rotated)) false 4
          (containersExample.foldl (fun m r => m.register heap reference.context r.1 r.2)
            (Machine.empty heap)) := by
  have v1 : SegmentsValid (operandSegments false containersExample) :=
    segmentsValid_of_check (by decide +kernel)
  have v2 : SegmentsValid (operandSegments true containersExample) :=
    segmentsValid_of_check (by decide +kernel)
  refine ⟨v1, v2, by decide +kernel, ?_⟩
  exact (C69_trees false (fun _ t => rotated_inorder t) (fun _ t => rotated_inorder t)
    reference.context_exact false 4 containersExample v1 v2).symm

end Orient.Props
