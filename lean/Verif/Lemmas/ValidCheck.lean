import Verif.Spec.Linear
import Verif.Lemmas.Reference
import Mathlib.Data.List.Pairwise

/-! A decision procedure for validity of lists of segments, used to show that hypotheses of theorems are
met by concrete cases. -/

namespace Orient

variable {K : Type} [Field K] [LinearOrder K]

/-- The segments share at most one point. -/
def reference.meetsAtPoint (a b : Segment K) : Bool :=
  match reference.segmentsRelation a b with
  | .disjoint | .touch | .cross => true
  | _ => false

/-- All segments are non-degenerate and different ones share at most one point. -/
def reference.isValid (l : List (Segment K)) : Bool :=
  decide (∀ s ∈ l, s.start ≠ s.finish) &&
    decide (l.Pairwise (fun a b => reference.meetsAtPoint a b = true))

variable [IsStrictOrderedRing K]

theorem segmentsValid_of_check {l : List (Segment K)} (h : reference.isValid l = true) :
    SegmentsValid l := by
  unfold reference.isValid at h
  rw [Bool.and_eq_true, decide_eq_true_eq, decide_eq_true_eq] at h
  have hd : ∀ s ∈ l, s.Nondegenerate := h.1
  refine ⟨hd, h.2.imp_of_mem ?_⟩
  intro a b ha hb hab
  have hr := reference.segmentsRelation_spec (hd a ha) (hd b hb)
  unfold reference.meetsAtPoint at hab
  revert hr hab
  cases reference.segmentsRelation a b <;> simp only [SegmentsRel, Bool.false_eq_true,
    false_implies, implies_true, forall_const]
  · intro h
    rw [h]
    exact Set.subsingleton_empty
  · rintro ⟨p, h, -⟩
    rw [h]
    exact Set.subsingleton_singleton
  · rintro ⟨p, h, -⟩
    rw [h]
    exact Set.subsingleton_singleton

end Orient
