import Verif.Lemmas.Jordan
import Verif.Lemmas.SimpleCheck
import Verif.Props.PointInCompound
import Mathlib.Algebra.Field.Rat
import Mathlib.Algebra.Order.Ring.Rat
import Verif.Model.Planar

/-! C35: the locations answered by `point_in_region` are the two sides of the contour. -/

set_option linter.unusedSectionVars false

namespace Orient.Props

variable {K : Type} [Field K] [LinearOrder K] [IsStrictOrderedRing K]

/-- C35: two points off a simple contour have the same location iff they are joined by a polyline which
does not meet the contour. -/
theorem C35_same_location_iff_joined {context : Context K} (hc : context.Exact) {c : Region K}
    (hs : c.Simple) {p q : Point K} (hp : p ∉ c.pts) (hq : q ∉ c.pts) :
    planar.pointInRegion p c context = planar.pointInRegion q c context ↔ Joined c.pts p q := by
  rw [hs.joined_iff hp hq]
  have key : ∀ x : Point K, x ∉ c.pts → (x ∈ c.interior ∧ planar.pointInRegion x c context = .interior) ∨
      (x ∉ c.interior ∧ planar.pointInRegion x c context = .exterior) := by
    intro x hx
    rcases Contour.cover hx with h | h
    · exact .inl ⟨h, (C10_point_in_region_unique hc x c .interior).mpr h⟩
    · exact .inr ⟨fun h' => Contour.not_both h' h, (C10_point_in_region_unique hc x c .exterior).mpr h⟩
  rcases key p hp with ⟨h1, h2⟩ | ⟨h1, h2⟩ <;> rcases key q hq with ⟨h3, h4⟩ | ⟨h3, h4⟩ <;>
    simp [h1, h2, h3, h4]

/-- C35: both sides of a simple contour have points, and the points of one are not joined with points of
the other. -/
theorem C35_two_sides {context : Context K} (hc : context.Exact) {c : Region K} (hs : c.Simple) :
    ∃ p q, planar.pointInRegion p c context = .interior ∧
      planar.pointInRegion q c context = .exterior ∧ ¬ Joined c.pts p q := by
  obtain ⟨p, hp⟩ := hs.interior_nonempty
  obtain ⟨q, hq⟩ := hs.exterior_nonempty
  refine ⟨p, q, (C10_point_in_region_unique hc p c .interior).mpr hp,
    (C10_point_in_region_unique hc q c .exterior).mpr hq, fun h => ?_⟩
  exact Contour.not_both ((hs.joined_iff hp.1 hq.1).mp h |>.mp hp) hq

/-- A U-shaped region: the points (1, 3) and (5, 3) are in the two arms. -/
def exampleHorseshoe : Region ℚ :=
  ⟨[⟨0, 0⟩, ⟨6, 0⟩, ⟨6, 4⟩, ⟨4, 4⟩, ⟨4, 2⟩, ⟨2, 2⟩, ⟨2, 4⟩, ⟨0, 4⟩]⟩

/-- C35, an example. -/
theorem C35_example : exampleHorseshoe.Simple ∧ Joined exampleHorseshoe.pts ⟨1, 3⟩ ⟨5, 3⟩ ∧
    ¬ Joined exampleHorseshoe.pts ⟨1, 3⟩ ⟨3, 3⟩ := by
  have hs : exampleHorseshoe.Simple := Contour.simple_of_check (by decide +kernel)
  have h1 := (C10_point_in_region_unique (reference.context_exact : (reference.context : Context ℚ).Exact)
    ⟨1, 3⟩ exampleHorseshoe .interior).mp (by decide +kernel)
  have h2 := (C10_point_in_region_unique (reference.context_exact : (reference.context : Context ℚ).Exact)
    ⟨5, 3⟩ exampleHorseshoe .interior).mp (by decide +kernel)
  have h3 := (C10_point_in_region_unique (reference.context_exact : (reference.context : Context ℚ).Exact)
    ⟨3, 3⟩ exampleHorseshoe .exterior).mp (by decide +kernel)
  refine ⟨hs, ?_, ?_⟩
  · rw [← C35_same_location_iff_joined (reference.context_exact : (reference.context : Context ℚ).Exact)
      hs h1.1 h2.1]
    decide +kernel
  · rw [← C35_same_location_iff_joined (reference.context_exact : (reference.context : Context ℚ).Exact)
      hs h1.1 h3.1]
    decide +kernel

end Orient.Props
