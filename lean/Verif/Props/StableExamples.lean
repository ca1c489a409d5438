import Verif.Props.Unstable
import Verif.Props.CompositionExamples

/-! C71: geometries which meet the hypotheses. -/

set_option linter.unusedSectionVars false

namespace Orient.Props

/-- C71 applies to areal geometries of every kind in every order. -/
theorem C71_example_areas : ∀ a ∈ someAreas, ∀ b ∈ someAreas, ∀ {r}, a.relate reference.context b = .ok r →
    ((∃ δ, 0 < δ ∧ ∀ a' b' : Area ℚ, a.Near δ a' → b.Near δ b' → a'.Valid → b'.Valid → a'.Fits b' →
      a'.relate reference.context b' = .ok r) ↔ r = .disjoint ∨ r = .within ∨ r = .cover ∨ r = .overlap) :=
  fun a ha b hb _ => C71_areas_iff ex (someAreas_valid a ha) (someAreas_valid b hb) (someAreas_suit a ha b hb)

/-- C71 applies to linear geometries of every kind. -/
theorem C71_example_lines : ∀ a ∈ someLines, ∀ b ∈ someAreas, a.relate reference.context b = .ok .cross →
    ∃ δ, 0 < δ ∧ ∀ (a' : Line ℚ) (b' : Area ℚ), a.Near δ a' → b.Near δ b' → a'.Valid → b'.Valid → a'.Suits b' →
      a'.relate reference.context b' = .ok .cross :=
  fun a ha b hb => C71_line ex (someLines_valid a ha) (someAreas_valid b hb) (someLines_suit a ha b hb) (by simp)

/-- A region and a multiregion overlap, and still do after small moves. -/
example : Area.relate reference.context (.region sameQ) (.multiregion sameM) = .ok .overlap := by decide +kernel

/-- A polygon and a multipolygon of which it is a component, which is changed by small moves. -/
example : Area.relate reference.context (.polygon sameG) (.multipolygon sameD) = .ok .component := by decide +kernel

/-- A segment crosses a region. -/
example : Line.relate reference.context (.segment sameS) (.region sameQ) = .ok .cross := by decide +kernel

/-- Points inside and outside. -/
example : Area.locate reference.context (.polygon sameG) ⟨5, 5⟩ = .interior ∧
    Area.locate reference.context (.polygon sameG) ⟨3 / 2, 3 / 2⟩ = .exterior := by decide +kernel

/-- Regions which overlap do so after small moves of their vertices. -/
example : ∃ δ, 0 < δ ∧ ∀ a' b' : Contour ℚ, sameQ.Near δ a' → sameT.Near δ b' →
    planar.regionInRegion a' b' reference.context = .ok .overlap :=
  C71_regions ex same_simple.1 same_simple.2.2.1 (by simp) (by decide +kernel)

/-- A contour which crosses a region does so after small moves of the vertices. -/
example : ∃ δ, 0 < δ ∧ ∀ a' b' : Contour ℚ, sameT.Near δ a' → sameQ.Near δ b' →
    planar.contourInRegion a' b' reference.context = .ok .cross :=
  C71_contour_region ex same_simple.2.2.1 same_simple.1 (by simp) (by decide +kernel)

/-- A segment and a contour without common points have none after small moves. -/
example : ∃ δ, 0 < δ ∧ ∀ a' b' : Line ℚ, (Line.segment sameS).Near δ a' → (Line.contour sameU).Near δ b' → a'.Valid →
    b'.Valid → a'.relateLine reference.context b' = .ok .disjoint :=
  C71_lines ex sameS_ok.1 same_simple.2.2.2.2.1 (by decide +kernel)

/-- Segments which cross each other. -/
example : ∃ δ, 0 < δ ∧ ∀ s' t' : Segment ℚ, sameS.Near δ s' → (⟨⟨3, 0⟩, ⟨3, 9⟩⟩ : Segment ℚ).Near δ t' →
    s'.Nondegenerate → t'.Nondegenerate → planar.segmentInSegment s' t' reference.context = .cross :=
  C71_segments ex sameS_ok.1 (t := ⟨⟨3, 0⟩, ⟨3, 9⟩⟩)
    (show (⟨3, 0⟩ : Point ℚ) ≠ ⟨3, 9⟩ by decide +kernel) (by decide +kernel)

/-- A segment which crosses a multisegment in a common endpoint of two of its segments need not do so after a small
move: the segments can be moved apart.  So C71 says nothing about `CROSS` of linear geometries other than segments. -/
example : planar.segmentInMultisegment ⟨⟨0, 0⟩, ⟨0, 4⟩⟩ ⟨[⟨⟨-1, 2⟩, ⟨0, 2⟩⟩, ⟨⟨0, 2⟩, ⟨1, 2⟩⟩]⟩
      (reference.context : Context ℚ) = .cross ∧
    planar.segmentInMultisegment ⟨⟨0, 0⟩, ⟨0, 4⟩⟩ ⟨[⟨⟨-1, 2⟩, ⟨-1 / 1000, 2⟩⟩, ⟨⟨1 / 1000, 2⟩, ⟨1, 2⟩⟩]⟩
      (reference.context : Context ℚ) = .disjoint := by decide +kernel

end Orient.Props
