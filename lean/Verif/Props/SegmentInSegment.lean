import Verif.Model.Planar
import Verif.Lemmas.SegmentsRel
import Verif.Lemmas.Reference
import Mathlib.Algebra.Field.Rat
import Mathlib.Algebra.Order.Ring.Rat

/-! C02: relating two segments. -/

set_option linter.unusedSectionVars false

namespace Orient.Props

variable {K : Type} [Field K] [LinearOrder K] [IsStrictOrderedRing K]

/-- C02: the answer is the relation of the sets of points. -/
theorem C02_segment_in_segment {context : Context K} (hc : context.Exact) {l r : Segment K}
    (hl : l.Nondegenerate) (hr : r.Nondegenerate) :
    (planar.segmentInSegment l r context = .equal ↔ l.pts = r.pts) ∧
    (planar.segmentInSegment l r context = .component ↔ l.pts ⊂ r.pts) ∧
    (planar.segmentInSegment l r context = .composite ↔ r.pts ⊂ l.pts) ∧
    (planar.segmentInSegment l r context = .overlap ↔
      ¬ l.pts ⊆ r.pts ∧ ¬ r.pts ⊆ l.pts ∧ (l.pts ∩ r.pts).Nontrivial) ∧
    (planar.segmentInSegment l r context = .cross ↔
      ∃ p, l.pts ∩ r.pts = {p} ∧ ¬ l.IsEndpoint p ∧ ¬ r.IsEndpoint p) ∧
    (planar.segmentInSegment l r context = .touch ↔
      ∃ p, l.pts ∩ r.pts = {p} ∧ (l.IsEndpoint p ∨ r.IsEndpoint p)) ∧
    (planar.segmentInSegment l r context = .disjoint ↔ l.pts ∩ r.pts = ∅) := by
  have h := fun x => hc.relation_eq_iff hl hr x
  exact ⟨h .equal, h .component, h .composite, h .overlap, h .cross, h .touch, h .disjoint⟩

/-- C02: no other answers, the complement for exchanged arguments, independence of directions. -/
theorem C02_segment_in_segment_symmetries {context : Context K} (hc : context.Exact)
    {l r : Segment K} (hl : l.Nondegenerate) (hr : r.Nondegenerate) :
    planar.segmentInSegment l r context ∈
      [Relation.equal, .component, .composite, .overlap, .cross, .touch, .disjoint] ∧
    planar.segmentInSegment r l context = (planar.segmentInSegment l r context).complement ∧
    planar.segmentInSegment l.reverse r context = planar.segmentInSegment l r context ∧
    planar.segmentInSegment l r.reverse context = planar.segmentInSegment l r context := by
  have h := hc.relation l r hl hr
  have e : planar.segmentInSegment l r context = context.segmentsRelation l r := rfl
  refine ⟨?_, ?_, ?_, ?_⟩
  · rw [e]
    revert h
    cases context.segmentsRelation l r <;> simp [SegmentsRel]
  · exact (hc.relation_eq_iff hr hl _).mpr h.symm
  · exact (hc.relation_eq_iff hl.reverse hr _).mpr
      (h.congr (Segment.pts_reverse l) rfl (Segment.isEndpoint_reverse l) (fun _ => Iff.rfl))
  · exact (hc.relation_eq_iff hl hr.reverse _).mpr
      (h.congr rfl (Segment.pts_reverse r) (fun _ => Iff.rfl) (Segment.isEndpoint_reverse r))

/-- All seven classes occur for non-degenerate segments. -/
example : let s : Segment ℚ := ⟨⟨0, 0⟩, ⟨2, 0⟩⟩
    s.Nondegenerate ∧
    planar.segmentInSegment s ⟨⟨2, 0⟩, ⟨0, 0⟩⟩ (reference.context : Context ℚ) = .equal ∧
    planar.segmentInSegment s ⟨⟨0, 0⟩, ⟨3, 0⟩⟩ (reference.context : Context ℚ) = .component ∧
    planar.segmentInSegment s ⟨⟨0, 0⟩, ⟨1, 0⟩⟩ (reference.context : Context ℚ) = .composite ∧
    planar.segmentInSegment s ⟨⟨1, 0⟩, ⟨3, 0⟩⟩ (reference.context : Context ℚ) = .overlap ∧
    planar.segmentInSegment s ⟨⟨1, -1⟩, ⟨1, 1⟩⟩ (reference.context : Context ℚ) = .cross ∧
    planar.segmentInSegment s ⟨⟨1, 0⟩, ⟨1, 1⟩⟩ (reference.context : Context ℚ) = .touch ∧
    planar.segmentInSegment s ⟨⟨0, 1⟩, ⟨1, 1⟩⟩ (reference.context : Context ℚ) = .disjoint := by
  unfold Segment.Nondegenerate
  decide +kernel

end Orient.Props
