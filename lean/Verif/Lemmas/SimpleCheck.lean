import Verif.Lemmas.Simple
import Verif.Lemmas.Reference

/-! A decision procedure for simplicity of contours, used to show that hypotheses of theorems are met by
concrete contours. -/

set_option linter.unusedSectionVars false

namespace Orient

variable {K : Type} [Field K] [LinearOrder K] [IsStrictOrderedRing K]

/-- Two segments meet at most in a common endpoint. -/
def reference.meetsAtEndpoints (a b : Segment K) : Bool :=
  decide (a.start ≠ a.finish) && decide (b.start ≠ b.finish) &&
  (decide (reference.segmentsRelation a b = .disjoint)
    || (decide (reference.segmentsRelation a b = .touch)
      && (decide (reference.segmentsIntersection a b = a.start)
        || decide (reference.segmentsIntersection a b = a.finish))
      && (decide (reference.segmentsIntersection a b = b.start)
        || decide (reference.segmentsIntersection a b = b.finish))))

theorem reference.meetsAtEndpoints_spec {a b : Segment K}
    (h : reference.meetsAtEndpoints a b = true) :
    ∀ p ∈ a.pts ∩ b.pts, a.IsEndpoint p ∧ b.IsEndpoint p := by
  unfold reference.meetsAtEndpoints at h
  simp only [Bool.and_eq_true, Bool.or_eq_true, decide_eq_true_eq] at h
  obtain ⟨⟨ha, hb⟩, h⟩ := h
  have hr := (reference.context_exact (K := K)).relation a b ha hb
  have hi := (reference.context_exact (K := K)).intersection a b ha hb
  simp only [reference.context] at hr hi
  intro p hp
  rcases h with h | ⟨⟨h, h1⟩, h2⟩
  · rw [h] at hr
    simp only [SegmentsRel] at hr
    rw [hr] at hp
    exact hp.elim
  · rw [h] at hr
    simp only [SegmentsRel] at hr
    obtain ⟨q, hq, -⟩ := hr
    have hi := hi (.inl h)
    rw [hq] at hi hp
    have e : reference.segmentsIntersection a b = p := by rw [hi, hp]
    rw [e] at h1 h2
    exact ⟨h1, h2⟩

/-- The decision procedure. -/
def reference.isSimple (c : Contour K) : Bool :=
  decide (3 ≤ c.vertices.length) && decide c.vertices.Nodup &&
    decide (c.edgeList.Pairwise (fun a b => reference.meetsAtEndpoints a b = true))

theorem Contour.simple_of_check {c : Contour K} (h : reference.isSimple c = true) : c.Simple := by
  unfold reference.isSimple at h
  simp only [Bool.and_eq_true, decide_eq_true_eq] at h
  exact ⟨h.1.1, h.1.2, h.2.imp reference.meetsAtEndpoints_spec⟩

end Orient
