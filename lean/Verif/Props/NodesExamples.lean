import Verif.Props.Nodes
import Verif.Props.CompositionExamples

/-! Examples for C65: a context which rounds intersections to integers. -/

namespace Orient.Props

variable {K : Type} [Field K] [LinearOrder K] [IsStrictOrderedRing K]

theorem nodes_of_check {l : List (Segment K)} {round : Point K → Point K}
    (h0 : ∀ s ∈ l, s.start ≠ s.finish) (h1 : ∀ s ∈ l, round s.start = s.start ∧ round s.finish = s.finish)
    (h2 : ∀ s ∈ l, ∀ t ∈ l, (reference.segmentsRelation s t = .touch ∨ reference.segmentsRelation s t = .cross) →
      round (reference.segmentsIntersection s t) = reference.segmentsIntersection s t) :
    ∀ p ∈ nodes l, round p = p := by
  rintro p (⟨s, hs, rfl | rfl⟩ | ⟨s, hs, t, ht, hp⟩)
  · exact (h1 s hs).1
  · exact (h1 s hs).2
  have ex : (reference.context : Context K).Exact := reference.context_exact
  have hrel : reference.segmentsRelation s t = .touch ∨ reference.segmentsRelation s t = .cross := by
    have hr := ex.relation s t (h0 s hs) (h0 t ht)
    by_cases he : s.IsEndpoint p ∨ t.IsEndpoint p
    · exact .inl (hr.unique (h0 s hs) (h0 t ht) (show SegmentsRel s t .touch from ⟨p, hp, he⟩))
    · push Not at he
      exact .inr (hr.unique (h0 s hs) (h0 t ht) (show SegmentsRel s t .cross from ⟨p, hp, he⟩))
  have hi := ex.intersection s t (h0 s hs) (h0 t ht) hrel
  rw [hp] at hi
  have hi : reference.segmentsIntersection s t = p := hi
  rw [← hi]
  exact h2 s hs t ht hrel

/-- Rounding down to integers. -/
def roundDown (p : Point ℚ) : Point ℚ := ⟨p.x.floor, p.y.floor⟩

/-- A context which rounds. -/
def coarse : Context ℚ := reference.context.rounding roundDown

/-- The context is not exact. -/
example : ¬ coarse.Exact := by
  intro h
  have := h.intersection ⟨⟨0, 0⟩, ⟨1, 1⟩⟩ ⟨⟨0, 1⟩, ⟨1, 0⟩⟩ (by unfold Segment.Nondegenerate; decide +kernel)
    (by unfold Segment.Nondegenerate; decide +kernel) (.inr (by decide +kernel))
  have h2 := (h.contains ⟨⟨0, 1⟩, ⟨1, 0⟩⟩ _).mpr this.2
  exact absurd h2 (by decide +kernel)

/-- A triangle, a square with corners on and beside it, and a polygon with a hole: the edges meet in integer points. -/
def nodeA : Area ℚ := .region ⟨[⟨0, 0⟩, ⟨8, 0⟩, ⟨0, 8⟩]⟩
/-- A square crossing an edge of the triangle. -/
def nodeB : Area ℚ := .region ⟨[⟨2, 2⟩, ⟨6, 2⟩, ⟨6, 6⟩, ⟨2, 6⟩]⟩
/-- A polygon with a hole. -/
def nodeC : Area ℚ := .polygon ⟨⟨[⟨-2, -2⟩, ⟨12, -2⟩, ⟨12, 12⟩, ⟨-2, 12⟩]⟩, [⟨[⟨3, 3⟩, ⟨7, 3⟩, ⟨7, 7⟩, ⟨3, 7⟩]⟩]⟩
/-- A multisegment crossing them. -/
def nodeL : Line ℚ := .multisegment ⟨[⟨⟨0, 4⟩, ⟨10, 4⟩⟩, ⟨⟨4, 0⟩, ⟨4, 20⟩⟩]⟩

theorem node_drawn : nodeA.Drawn ∧ nodeB.Drawn ∧ nodeC.Drawn ∧ nodeL.Drawn := by
  have key : ∀ c : Contour ℚ, c.vertices ≠ [] → (∀ e ∈ c.edgeList, e.start ≠ e.finish) → c.Drawn := fun c h h' =>
    ⟨h, h'⟩
  refine ⟨key _ (by decide +kernel) (by decide +kernel), key _ (by decide +kernel) (by decide +kernel),
    ⟨key _ (by decide +kernel) (by decide +kernel), ?_⟩, ?_, by decide +kernel⟩
  · intro c hc
    rw [List.mem_singleton] at hc
    subst hc
    exact key _ (by decide +kernel) (by decide +kernel)
  · unfold Segment.Nondegenerate
    decide +kernel

example : nodeA.relate coarse nodeB = nodeA.relate reference.context nodeB ∧
    nodeA.relate reference.context nodeB = .ok .overlap :=
  ⟨C65_rounding_areas node_drawn.1 node_drawn.2.1 reference.context_exact
    (nodes_of_check (by decide +kernel) (by decide +kernel) (by decide +kernel)), by decide +kernel⟩

example : nodeA.relate coarse nodeC = nodeA.relate reference.context nodeC ∧
    nodeA.relate reference.context nodeC = .ok .overlap :=
  ⟨C65_rounding_areas node_drawn.1 node_drawn.2.2.1 reference.context_exact
    (nodes_of_check (by decide +kernel) (by decide +kernel) (by decide +kernel)), by decide +kernel⟩

example : nodeL.relate coarse nodeC = nodeL.relate reference.context nodeC ∧
    nodeL.relate reference.context nodeC = .ok .cross :=
  ⟨C65_rounding_line node_drawn.2.2.2 node_drawn.2.2.1 reference.context_exact
    (nodes_of_check (by decide +kernel) (by decide +kernel) (by decide +kernel)), by decide +kernel⟩

example : nodeL.relateLine coarse (.contour ⟨[⟨0, 0⟩, ⟨8, 0⟩, ⟨0, 8⟩]⟩) =
      nodeL.relateLine reference.context (.contour ⟨[⟨0, 0⟩, ⟨8, 0⟩, ⟨0, 8⟩]⟩) ∧
    nodeL.relateLine reference.context (.contour ⟨[⟨0, 0⟩, ⟨8, 0⟩, ⟨0, 8⟩]⟩) = .ok .cross :=
  ⟨C65_rounding_lines node_drawn.2.2.2 (b := .contour ⟨[⟨0, 0⟩, ⟨8, 0⟩, ⟨0, 8⟩]⟩) node_drawn.1 reference.context_exact
    (nodes_of_check (by decide +kernel) (by decide +kernel) (by decide +kernel)), by decide +kernel⟩

/-- Points which are not integers are located: nothing is calculated but orientations. -/
example : nodeC.locate (reference.context.rounding fun _ => ⟨0, 0⟩) ⟨5/2, 5/2⟩ =
    nodeC.locate reference.context ⟨5/2, 5/2⟩ := rfl

/-- No edges cross: only the vertices have to be kept. -/
example : (Area.region ⟨[⟨1/2, 1/2⟩, ⟨3, 1⟩, ⟨1, 3⟩]⟩).relate (reference.context.rounding fun p =>
      if p = ⟨1/2, 1/2⟩ then p else roundDown p) nodeA =
    (Area.region ⟨[⟨1/2, 1/2⟩, ⟨3, 1⟩, ⟨1, 3⟩]⟩).relate reference.context nodeA := by
  refine C65_no_crossings ?_ node_drawn.1 reference.context_exact ?_ (by decide +kernel)
  · refine ⟨by decide +kernel, ?_⟩
    unfold Segment.Nondegenerate
    decide +kernel
  · have h0 : ∀ s ∈ (Area.region (⟨[⟨1/2, 1/2⟩, ⟨3, 1⟩, ⟨1, 3⟩]⟩ : Contour ℚ)).edges ++ nodeA.edges,
        s.start ≠ s.finish := by decide +kernel
    have h1 : ∀ s ∈ (Area.region (⟨[⟨1/2, 1/2⟩, ⟨3, 1⟩, ⟨1, 3⟩]⟩ : Contour ℚ)).edges ++ nodeA.edges,
        ∀ t ∈ (Area.region (⟨[⟨1/2, 1/2⟩, ⟨3, 1⟩, ⟨1, 3⟩]⟩ : Contour ℚ)).edges ++ nodeA.edges,
        reference.segmentsRelation s t ≠ .cross := by decide +kernel
    intro s hs t ht h
    exact h1 s hs t ht ((reference.context_exact.relation s t (h0 s hs) (h0 t ht)).unique (h0 s hs) (h0 t ht) h)

/-- Rounding of a crossing that is not an integer point can change the answer: these triangles overlap. -/
example : let a : Region ℚ := ⟨[⟨0, 2⟩, ⟨2, 4⟩, ⟨4, 5⟩]⟩
    let b : Region ℚ := ⟨[⟨3, 0⟩, ⟨0, 4⟩, ⟨6, 3⟩]⟩
    planar.regionInRegion a b reference.context = .ok .overlap ∧ planar.regionInRegion a b coarse = .ok .disjoint := by
  decide +kernel

end Orient.Props
