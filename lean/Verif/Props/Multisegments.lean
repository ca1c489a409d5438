import Verif.Lemmas.Sweep.OpenLinear
import Verif.Spec.Boundary
import Verif.Lemmas.Reference
import Verif.Lemmas.ValidCheck
import Mathlib.Algebra.Field.Rat
import Mathlib.Algebra.Order.Ring.Rat

/-! C17: the answers of `multisegment_in_multisegment` and `multisegment_in_contour` are true. -/

set_option linter.unusedSectionVars false

namespace Orient.Props

open eventsQueue State

variable {K : Type} [Field K] [LinearOrder K] [IsStrictOrderedRing K]

/-- What an answer claims about the sets of points of the operands. -/
def Claims (S T : Set (Point K)) (r : Relation) : Prop :=
  (r = .equal → S = T) ∧ (r = .component → S ⊆ T) ∧ (r = .composite → T ⊆ S) ∧
  (r = .overlap → SharesPiece S T) ∧ (r ≠ .disjoint → (S ∩ T).Nonempty)

theorem segsPts_nonempty {l : List (Segment K)} (h : l ≠ []) : (segsPts l).Nonempty := by
  obtain ⟨u, hu⟩ := List.exists_mem_of_ne_nil l h
  exact ⟨u.start, u, hu, u.start_mem⟩

theorem claims_of_run {context : Context K} (hc : context.Exact) {s : State K}
    {G T : List (Segment K)} (h : Registered s G T) (hG : G ≠ []) (hT : T ≠ []) {bg bt : Box K}
    (hg : IsBoxOf bg (segsPts G)) (ht : IsBoxOf bt (segsPts T)) {r : Relation}
    (hr : runOpenLinear context s (min bg.maxX bt.maxX) = .ok r) :
    Claims (segsPts T) (segsPts G) r := by
  obtain ⟨h1, h2, h3, h4, h5⟩ := runOpenLinear_sound hc h hg.le_maxX ht.le_maxX hr
  refine ⟨h1, h2, h3, h4, fun hne => ?_⟩
  obtain ⟨x, hx⟩ := segsPts_nonempty hG
  obtain ⟨y, hy⟩ := segsPts_nonempty hT
  have hrange : r = .equal ∨ r = .component ∨ r = .composite ∨ r = .overlap ∨ r = .touch ∨ r = .cross := by
    have := runOpenLinear_answers context s (min bg.maxX bt.maxX) r hr
    unfold linearLinear at this
    simp only [List.mem_cons, List.not_mem_nil, or_false] at this
    tauto
  rcases hrange with e | e | e | e | e | e
  · exact ⟨x, h1 e ▸ hx, hx⟩
  · exact ⟨y, hy, h2 e hy⟩
  · exact ⟨x, h3 e hx, hx⟩
  · obtain ⟨u, -, k1, k2⟩ := h4 e
    exact ⟨u.start, k1 u.start_mem, k2 u.start_mem⟩
  · exact h5 (.inl e)
  · exact h5 (.inr e)

/-- C17: whatever `multisegment_in_multisegment` answers is true of the sets of points: `EQUAL`,
`COMPONENT` and `COMPOSITE` of inclusions, `OVERLAP` of a common piece, and anything except
`DISJOINT` of a common point.  The segments of each operand may cross each other in any way. -/
theorem C17_multisegment_in_multisegment {context : Context K} (hc : context.Exact)
    {a b : Multisegment K} (ha : a.segments ≠ []) (hb : b.segments ≠ [])
    (hna : ∀ u ∈ a.segments, u.Nondegenerate) (hnb : ∀ u ∈ b.segments, u.Nondegenerate)
    {r : Relation} (h : planar.multisegmentInMultisegment a b context = .ok r) :
    Claims (segsPts a.segments) (segsPts b.segments) r := by
  unfold planar.multisegmentInMultisegment multisegment.relateMultisegment at h
  simp only at h
  split_ifs at h
  · obtain rfl := Except.ok.inj h
    exact ⟨nofun, nofun, nofun, nofun, fun h => absurd rfl h⟩
  · exact claims_of_run hc (registered (matches_segments b) (matches_segments a) hnb hna) hb ha
      (hc.segmentsBox _ hb) (hc.segmentsBox _ ha) h

/-- C17, the same for `multisegment_in_contour`. -/
theorem C17_multisegment_in_contour {context : Context K} (hc : context.Exact)
    {a : Multisegment K} {b : Contour K} (ha : a.segments ≠ []) (hb : b.Drawn)
    (hna : ∀ u ∈ a.segments, u.Nondegenerate)
    {r : Relation} (h : planar.multisegmentInContour a b context = .ok r) :
    Claims (segsPts a.segments) b.pts r := by
  unfold planar.multisegmentInContour contour.relateMultisegment at h
  simp only at h
  split_ifs at h
  · obtain rfl := Except.ok.inj h
    exact ⟨nofun, nofun, nofun, nofun, fun h => absurd rfl h⟩
  · have hne : b.edgeList ≠ [] := by
      have := hb.1
      rw [← List.length_pos_iff] at this ⊢
      rwa [Contour.length_edgeList]
    exact claims_of_run hc (registered (matches_edges b) (matches_segments a) hb.2 hna)
      hne ha (hc.contourBox _ hb.1) (hc.segmentsBox _ ha) h

/-- Multisegments, one of them with crossing segments, with the answers `COMPONENT`, `OVERLAP` and
`CROSS`. -/
example : let a : Multisegment ℚ := ⟨[⟨⟨0, 0⟩, ⟨4, 4⟩⟩, ⟨⟨0, 4⟩, ⟨4, 0⟩⟩]⟩
    let b : Multisegment ℚ := ⟨[⟨⟨1, 1⟩, ⟨2, 2⟩⟩, ⟨⟨3, 1⟩, ⟨1, 3⟩⟩]⟩
    let c : Multisegment ℚ := ⟨[⟨⟨1, 1⟩, ⟨5, 5⟩⟩, ⟨⟨3, 1⟩, ⟨1, 3⟩⟩]⟩
    let d : Multisegment ℚ := ⟨[⟨⟨1, 0⟩, ⟨1, 4⟩⟩, ⟨⟨3, 1⟩, ⟨3, 3⟩⟩]⟩
    (∀ l ∈ [a.segments, b.segments, c.segments, d.segments], l ≠ [] ∧ ∀ u ∈ l, u.Nondegenerate) ∧
    planar.multisegmentInMultisegment b a reference.context = .ok .component ∧
    planar.multisegmentInMultisegment c a reference.context = .ok .overlap ∧
    planar.multisegmentInMultisegment d a reference.context = .ok .cross := by
  refine ⟨?_, by decide +kernel⟩
  show ∀ l ∈ (_ : List (List (Segment ℚ))), l ≠ [] ∧ ∀ u ∈ l, u.start ≠ u.finish
  decide +kernel

/-- A multisegment that makes up a contour. -/
example : let a : Multisegment ℚ := ⟨[⟨⟨0, 0⟩, ⟨2, 0⟩⟩, ⟨⟨4, 0⟩, ⟨2, 0⟩⟩, ⟨⟨4, 0⟩, ⟨0, 4⟩⟩, ⟨⟨0, 0⟩, ⟨0, 4⟩⟩]⟩
    let b : Contour ℚ := ⟨[⟨0, 0⟩, ⟨4, 0⟩, ⟨0, 4⟩]⟩
    a.segments ≠ [] ∧ b.Drawn ∧ (∀ u ∈ a.segments, u.Nondegenerate) ∧
    planar.multisegmentInContour a b reference.context = .ok .equal := by
  refine ⟨by simp, ⟨by simp, ?_⟩, ?_, by decide +kernel⟩
  · show ∀ u ∈ (_ : List (Segment ℚ)), u.start ≠ u.finish
    decide +kernel
  · show ∀ u ∈ (_ : List (Segment ℚ)), u.start ≠ u.finish
    decide +kernel

end Orient.Props
