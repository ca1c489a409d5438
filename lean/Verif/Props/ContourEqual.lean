import Verif.Model.Planar
import Verif.Lemmas.SimpleCheck
import Mathlib.Algebra.Field.Rat
import Mathlib.Algebra.Order.Ring.Rat

/-! C24: contours are recognised as equal up to rotation and reversal. -/

set_option linter.unusedSectionVars false

namespace Orient

variable {K : Type} [Field K] [LinearOrder K] [IsStrictOrderedRing K]

theorem Contour.SameCycle.symm {c d : Contour K} (h : c.SameCycle d) : d.SameCycle c := by
  obtain ⟨k, hk | hk⟩ := h
  · obtain ⟨m, hm⟩ : c.vertices ~r d.vertices := (List.IsRotated.symm ⟨k, Eq.symm hk⟩)
    exact ⟨m, .inl (Eq.symm hm)⟩
  · have h1 : c.vertices.reverse ~r d.vertices := by
      rw [hk, List.reverse_reverse]
      exact List.IsRotated.symm ⟨k, rfl⟩
    have h2 := h1.reverse
    rw [List.reverse_reverse] at h2
    obtain ⟨m, hm⟩ := h2
    refine ⟨m, .inr ?_⟩
    rw [hm, List.reverse_reverse]

theorem contour.equal_of_sameCycle {context : Context K} (hc : context.Exact) {left right : Contour K}
    (hs : right.Simple) (h : left.SameCycle right) : contour.equal left right context = .ok true := by
  obtain ⟨p, v, q, hl, hne⟩ := hs.leastCorner
  obtain ⟨k, hk⟩ := h
  exact contour.equal_complete hs.nodup hl (hc.orientation_ne hne) hk

theorem Contour.Simple.exists_mem {c : Contour K} (h : c.Simple) : ∃ p, p ∈ c.pts := by
  obtain ⟨p, v, q, ⟨k, rest, hk, -⟩, -⟩ := h.leastCorner
  refine ⟨p, Contour.vertex_mem_pts ?_⟩
  rw [← List.mem_rotate (n := k), hk]
  simp

theorem Contour.Simple.ne_nil {c : Contour K} (h : c.Simple) : c.vertices ≠ [] := by
  intro e
  have := h.three
  rw [e] at this
  simp at this

theorem Contour.SameCycle.box {context : Context K} (hc : context.Exact) {c d : Contour K}
    (hs : d.Simple) (h : c.SameCycle d) :
    box.disjointWith (context.contourBox c) (context.contourBox d) = false := by
  obtain ⟨p, hp⟩ := hs.exists_mem
  have hcs := hs.of_sameCycle h
  exact box.not_disjointWith (hc.contourBox c hcs.ne_nil) (hc.contourBox d hs.ne_nil)
    (by rw [h.pts]; exact hp) hp

namespace Props

/-- C24: simple contours which are the same closed polyline, up to rotation and reversal of the list of
vertices, are EQUAL as contours and as regions, and one is a COMPONENT of the region of the other. -/
theorem C24_same_cycle {context : Context K} (hc : context.Exact) {left right : Contour K}
    (hs : left.Simple) (h : left.SameCycle right) :
    planar.contourInContour left right context = .ok .equal ∧
    planar.regionInRegion left right context = .ok .equal ∧
    planar.contourInRegion left right context = .ok .component := by
  have e := contour.equal_of_sameCycle hc hs h.symm
  have b := Contour.SameCycle.box hc hs h.symm
  have b' := Contour.SameCycle.box hc (hs.of_sameCycle h.symm) h
  refine ⟨?_, ?_, ?_⟩
  · unfold planar.contourInContour contour.relateContour
    simp only [b, e]
    rfl
  · unfold planar.regionInRegion region.relateRegion region.relateRegionBoxed
    simp only [b, e]
    rfl
  · unfold planar.contourInRegion region.relateContour region.relateContourBoxed
    simp only [b', e]
    rfl

/-- C24: the shortcut answers true only for contours that are the same closed polyline; nothing is
assumed of the contours or of the context. -/
theorem C24_shortcut_sound {context : Context K} {left right : Contour K}
    (h : contour.equal left right context = .ok true) :
    left.SameCycle right ∧ left.pts = right.pts := by
  have := contour.equal_sound h
  exact ⟨this, Contour.SameCycle.pts this⟩

/-- C24: for simple contours the shortcut answers true exactly for the same closed polyline, and it
does not raise. -/
theorem C24_shortcut_iff {context : Context K} (hc : context.Exact) {left right : Contour K}
    (hs : right.Simple) :
    contour.equal left right context = .ok true ↔ left.SameCycle right :=
  ⟨fun h => (C24_shortcut_sound h).1, fun h => contour.equal_of_sameCycle hc hs h⟩

/-- A non-convex contour with a rotated and reversed copy. -/
example : let c : Contour ℚ := ⟨[⟨0, 0⟩, ⟨4, 0⟩, ⟨1, 1⟩, ⟨0, 4⟩]⟩
    let d : Contour ℚ := ⟨[⟨1, 1⟩, ⟨4, 0⟩, ⟨0, 0⟩, ⟨0, 4⟩]⟩
    c.Simple ∧ c.SameCycle d ∧
    planar.contourInContour c d (reference.context : Context ℚ) = .ok .equal ∧
    planar.contourInContour c ⟨[⟨0, 0⟩, ⟨1, 1⟩, ⟨4, 0⟩, ⟨0, 4⟩]⟩ (reference.context : Context ℚ)
      ≠ .ok .equal := by
  refine ⟨Contour.simple_of_check (by decide +kernel), ⟨3, .inr (by decide +kernel)⟩,
    by decide +kernel, by decide +kernel⟩

end Props

end Orient
