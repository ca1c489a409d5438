import Verif.Spec.LinearCompose
import Verif.Props.LinearJoins

/-! C93: relations of three linear geometries. -/

set_option linter.unusedSectionVars false

namespace Orient.Props

variable {K : Type} [Field K] [LinearOrder K] [IsStrictOrderedRing K]

/-- Implication of truth values. -/
def imp (a b : Bool) : Bool := !a || b

theorem imp_iff {a b : Bool} : imp a b = true ↔ (a = true → b = true) := by cases a <;> cases b <;> decide

theorem compose_bits : ∀ p q m n p' q' m' n' P Q M N : Bool,
    (imp p m && imp q m && imp m n && imp p' m' && imp q' m' &&
    imp m' n' && imp P M && imp Q M && imp M N && imp p (imp p' P) &&
    imp q' (imp q Q) && imp P (imp q' p) && imp Q (imp p q') && imp q (imp P p') && imp p' (imp Q q) &&
    imp p (imp M m') && imp q (imp m' M) && imp p' (imp m M) && imp q' (imp M m) && imp P (imp m m') &&
    imp Q (imp m' m) && imp p (imp N n') && imp q (imp n' N) && imp p' (imp n N) && imp q' (imp N n) &&
    imp P (imp n n') && imp Q (imp n' n)) = true →
    relationOf P Q M N ∈ (relationOf p q m n).linearCompose (relationOf p' q' m' n') := by decide +kernel

open Classical in
/-- The relations of three linear sets. -/
theorem compose_sets {S T U : Set (Point K)} (hS : SharesPiece S S) (hT : SharesPiece T T) (hU : SharesPiece U U)
    {r q s : Relation} (h1 : SetsRel S T r) (h2 : SetsRel T U q) (h3 : SetsRel S U s) :
    s.flat ∈ r.flat.linearCompose q.flat := by
  have meet : ∀ {A B C : Set (Point K)}, A ⊆ B → (A ∩ C).Nonempty → (B ∩ C).Nonempty := fun k ⟨x, x1, x2⟩ => ⟨x, k x1, x2⟩
  have swap : ∀ {A B : Set (Point K)}, (A ∩ B).Nonempty → (B ∩ A).Nonempty := fun ⟨x, x1, x2⟩ => ⟨x, x2, x1⟩
  have self : ∀ {A B : Set (Point K)}, SharesPiece A A → A ⊆ B → SharesPiece A B := fun k k' => k.mono le_rfl k'
  have self' : ∀ {A B : Set (Point K)}, SharesPiece A A → A ⊆ B → SharesPiece B A := fun k k' => k.mono k' le_rfl
  rw [SetsRel.flat_eq h1 (self hS) (self' hT), SetsRel.flat_eq h2 (self hT) (self' hU),
    SetsRel.flat_eq h3 (self hS) (self' hU)]
  apply compose_bits
  simp only [Bool.and_eq_true, imp_iff, decide_eq_true_eq]
  repeat' apply And.intro
  · exact self hS
  · exact self' hT
  · exact fun k => k.inter_nonempty
  · exact self hT
  · exact self' hU
  · exact fun k => k.inter_nonempty
  · exact self hS
  · exact self' hU
  · exact fun k => k.inter_nonempty
  · exact fun k k' => k.trans k'
  · exact fun k k' => k.trans k'
  · exact fun k k' => k.trans k'
  · exact fun k k' => k.trans k'
  · exact fun k k' => k.trans k'
  · exact fun k k' => k.trans k'
  · exact fun k k' => k'.mono k le_rfl
  · exact fun k k' => k'.mono k le_rfl
  · exact fun k k' => k'.mono le_rfl k
  · exact fun k k' => k'.mono le_rfl k
  · exact fun k k' => (k'.mono k le_rfl).symm
  · exact fun k k' => (k'.mono le_rfl k).symm
  · exact fun k k' => meet k k'
  · exact fun k k' => meet k k'
  · exact fun k k' => swap (meet k (swap k'))
  · exact fun k k' => swap (meet k (swap k'))
  · exact fun k k' => swap (meet k k')
  · exact fun k k' => meet k (swap k')

/-- The relation of contours is the relation of sets, up to `TOUCH` and `CROSS`. -/
theorem setsRel_of_contours {a b : Contour K} {r : Relation} (h : ContoursRel a b r) (ha : a.Simple) (hb : b.Simple) :
    SetsRel a.pts b.pts r := by
  cases r with
  | equal => exact h
  | overlap =>
    exact ⟨fun k => h.1 (hb.pts_eq_of_subset ha k), fun k => h.1 (ha.pts_eq_of_subset hb k).symm, h.2⟩
  | cross =>
    refine ⟨Set.nonempty_iff_ne_empty.mpr fun k => Contour.not_both_of_disjoint k h.2.1 h.2.2, h.1⟩
  | touch => exact ⟨h.2.1, h.1⟩
  | disjoint => exact h
  | _ => exact h.elim

theorem segsPts_sharesPiece {l : List (Segment K)} (h : SegmentsValid l) (hl : l ≠ []) :
    SharesPiece (segsPts l) (segsPts l) := sharesPiece_of_subset h.1 hl le_rfl

section

variable {context : Context K} (hc : context.Exact)
include hc

theorem contourInContour_sets {a b : Contour K} (ha : a.Simple) (hb : b.Simple) :
    ∃ r, planar.contourInContour a b context = .ok r ∧ SetsRel a.pts b.pts r := by
  obtain ⟨r, hr, h⟩ := C36_contour_in_contour_partial hc ha hb
  refine ⟨r, hr, ?_⟩
  rcases h with h | ⟨rfl, h, -⟩
  · exact setsRel_of_contours h ha hb
  · exact setsRel_of_contours (r := .cross) h ha hb

/-- C93: three multisegments. -/
theorem C93_multisegments {a b c : Multisegment K} (na : a.segments ≠ []) (nb : b.segments ≠ []) (nc : c.segments ≠ [])
    (va : SegmentsValid a.segments) (vb : SegmentsValid b.segments) (vc : SegmentsValid c.segments) : ∃ r q s,
    planar.multisegmentInMultisegment a b context = .ok r ∧ planar.multisegmentInMultisegment b c context = .ok q ∧
      planar.multisegmentInMultisegment a c context = .ok s ∧ s.flat ∈ r.flat.linearCompose q.flat := by
  obtain ⟨r, hr, h1⟩ := C18_multisegment_in_multisegment hc na nb va vb
  obtain ⟨q, hq, h2⟩ := C18_multisegment_in_multisegment hc nb nc vb vc
  obtain ⟨s, hs, h3⟩ := C18_multisegment_in_multisegment hc na nc va vc
  exact ⟨r, q, s, hr, hq, hs, compose_sets (segsPts_sharesPiece va na) (segsPts_sharesPiece vb nb)
    (segsPts_sharesPiece vc nc) h1 h2 h3⟩

/-- C93: two multisegments and a contour. -/
theorem C93_contour {a b : Multisegment K} {c : Contour K} (na : a.segments ≠ []) (nb : b.segments ≠ [])
    (va : SegmentsValid a.segments) (vb : SegmentsValid b.segments) (sc : c.Simple) : ∃ r q s,
    planar.multisegmentInMultisegment a b context = .ok r ∧ planar.multisegmentInContour b c context = .ok q ∧
      planar.multisegmentInContour a c context = .ok s ∧ s.flat ∈ r.flat.linearCompose q.flat := by
  obtain ⟨r, hr, h1⟩ := C18_multisegment_in_multisegment hc na nb va vb
  obtain ⟨q, hq, h2⟩ := C18_multisegment_in_contour hc nb sc.ne_nil vb sc.valid
  obtain ⟨s, hs, h3⟩ := C18_multisegment_in_contour hc na sc.ne_nil va sc.valid
  exact ⟨r, q, s, hr, hq, hs, compose_sets (segsPts_sharesPiece va na) (segsPts_sharesPiece vb nb) sc.sharesPiece h1 h2 h3⟩

/-- C93: a multisegment and two contours. -/
theorem C93_contours {a : Multisegment K} {b c : Contour K} (na : a.segments ≠ []) (va : SegmentsValid a.segments)
    (sb : b.Simple) (sc : c.Simple) : ∃ r q s,
    planar.multisegmentInContour a b context = .ok r ∧ planar.contourInContour b c context = .ok q ∧
      planar.multisegmentInContour a c context = .ok s ∧ s.flat ∈ r.flat.linearCompose q.flat := by
  obtain ⟨r, hr, h1⟩ := C18_multisegment_in_contour hc na sb.ne_nil va sb.valid
  obtain ⟨q, hq, h2⟩ := contourInContour_sets hc sb sc
  obtain ⟨s, hs, h3⟩ := C18_multisegment_in_contour hc na sc.ne_nil va sc.valid
  exact ⟨r, q, s, hr, hq, hs, compose_sets (segsPts_sharesPiece va na) sb.sharesPiece sc.sharesPiece h1 h2 h3⟩

/-- C93: three contours. -/
theorem C93_three_contours {a b c : Contour K} (sa : a.Simple) (sb : b.Simple) (sc : c.Simple) : ∃ r q s,
    planar.contourInContour a b context = .ok r ∧ planar.contourInContour b c context = .ok q ∧
      planar.contourInContour a c context = .ok s ∧ s.flat ∈ r.flat.linearCompose q.flat := by
  obtain ⟨r, hr, h1⟩ := contourInContour_sets hc sa sb
  obtain ⟨q, hq, h2⟩ := contourInContour_sets hc sb sc
  obtain ⟨s, hs, h3⟩ := contourInContour_sets hc sa sc
  exact ⟨r, q, s, hr, hq, hs, compose_sets sa.sharesPiece sb.sharesPiece sc.sharesPiece h1 h2 h3⟩

theorem segmentInMultisegment_flat {s : Segment K} (hs : s.Nondegenerate) {a : Multisegment K}
    (va : SegmentsValid a.segments) (h2 : 2 ≤ a.segments.length) {r : Relation}
    (h : planar.multisegmentInMultisegment ⟨[s]⟩ a context = .ok r) :
    r.flat = (planar.segmentInMultisegment s a context).flat := by
  rcases C89_segment_in_multisegment hc hs va h2 with k | ⟨k1, k2⟩
  · cases h.symm.trans k; rfl
  · cases h.symm.trans k1; rw [k2]; rfl

/-- C93: three segments. -/
theorem C93_segments {s t u : Segment K} (hs : s.Nondegenerate) (ht : t.Nondegenerate) (hu : u.Nondegenerate) :
    (planar.segmentInSegment s u context).flat ∈
      (planar.segmentInSegment s t context).flat.linearCompose (planar.segmentInSegment t u context).flat := by
  obtain ⟨r, q, p, h1, h2, h3, h⟩ := C93_multisegments hc (a := ⟨[s]⟩) (b := ⟨[t]⟩) (c := ⟨[u]⟩) (by simp) (by simp)
    (by simp) (single_valid hs) (single_valid ht) (single_valid hu)
  cases h1.symm.trans (C89_segments hc hs ht).1
  cases h2.symm.trans (C89_segments hc ht hu).1
  cases h3.symm.trans (C89_segments hc hs hu).1
  exact h

/-- C93: two segments and a multisegment. -/
theorem C93_two_segments {s t : Segment K} {a : Multisegment K} (hs : s.Nondegenerate) (ht : t.Nondegenerate)
    (va : SegmentsValid a.segments) (h2 : 2 ≤ a.segments.length) :
    (planar.segmentInMultisegment s a context).flat ∈
      (planar.segmentInSegment s t context).flat.linearCompose (planar.segmentInMultisegment t a context).flat := by
  obtain ⟨r, q, p, k1, k2, k3, h⟩ := C93_multisegments hc (a := ⟨[s]⟩) (b := ⟨[t]⟩) (c := a) (by simp) (by simp)
    (List.ne_nil_of_length_pos (by omega)) (single_valid hs) (single_valid ht) va
  cases k1.symm.trans (C89_segments hc hs ht).1
  rwa [segmentInMultisegment_flat hc hs va h2 k3, segmentInMultisegment_flat hc ht va h2 k2] at h

/-- C93: a segment and two multisegments. -/
theorem C93_segment {s : Segment K} {a b : Multisegment K} (hs : s.Nondegenerate) (va : SegmentsValid a.segments)
    (vb : SegmentsValid b.segments) (h2 : 2 ≤ a.segments.length) (h2' : 2 ≤ b.segments.length) : ∃ q,
    planar.multisegmentInMultisegment a b context = .ok q ∧
      (planar.segmentInMultisegment s b context).flat ∈
        (planar.segmentInMultisegment s a context).flat.linearCompose q.flat := by
  obtain ⟨r, q, p, k1, k2, k3, h⟩ := C93_multisegments hc (a := ⟨[s]⟩) (b := a) (c := b) (by simp)
    (List.ne_nil_of_length_pos (by omega)) (List.ne_nil_of_length_pos (by omega)) (single_valid hs) va vb
  rw [segmentInMultisegment_flat hc hs va h2 k1, segmentInMultisegment_flat hc hs vb h2' k3] at h
  exact ⟨q, k2, h⟩

end

/-- Some multisegments. -/
def composedMultisegments : List (Multisegment ℚ) :=
  let a : Segment ℚ := ⟨⟨0, 0⟩, ⟨1, 0⟩⟩
  let b : Segment ℚ := ⟨⟨0, 0⟩, ⟨0, 1⟩⟩
  let c : Segment ℚ := ⟨⟨0, 0⟩, ⟨-1, 0⟩⟩
  let d : Segment ℚ := ⟨⟨5, 5⟩, ⟨6, 5⟩⟩
  let e : Segment ℚ := ⟨⟨5, 5⟩, ⟨5, 6⟩⟩
  let f : Segment ℚ := ⟨⟨9, 9⟩, ⟨9, 10⟩⟩
  [⟨[a, b, c, e]⟩, ⟨[c, d]⟩, ⟨[d]⟩, ⟨[b, e]⟩, ⟨[a, b, c]⟩, ⟨[a]⟩, ⟨[d, f]⟩, ⟨[b, c, d, f]⟩, ⟨[f]⟩]

theorem composedMultisegments_valid : ∀ m ∈ composedMultisegments, m.segments ≠ [] ∧ SegmentsValid m.segments := by
  have key : ∀ m ∈ composedMultisegments, m.segments ≠ [] ∧ reference.isValid m.segments = true := by decide +kernel
  exact fun m hm => ⟨(key m hm).1, segmentsValid_of_check (key m hm).2⟩

/-- The relations of the multisegments to each other, up to `TOUCH` and `CROSS`. -/
def composedRelations : List (List Relation) :=
  [[.equal, .overlap, .touch, .composite, .composite, .composite, .touch, .overlap, .disjoint],
    [.overlap, .equal, .composite, .touch, .overlap, .touch, .overlap, .component, .disjoint],
    [.touch, .component, .equal, .touch, .disjoint, .disjoint, .component, .component, .disjoint],
    [.component, .touch, .touch, .equal, .overlap, .touch, .touch, .overlap, .disjoint],
    [.component, .overlap, .disjoint, .overlap, .equal, .composite, .disjoint, .overlap, .disjoint],
    [.component, .touch, .disjoint, .touch, .component, .equal, .disjoint, .touch, .disjoint],
    [.touch, .overlap, .composite, .touch, .disjoint, .disjoint, .equal, .component, .composite],
    [.overlap, .composite, .composite, .overlap, .overlap, .touch, .composite, .equal, .composite],
    [.disjoint, .disjoint, .disjoint, .disjoint, .disjoint, .disjoint, .component, .component, .equal]]

/-- These are the answers about the multisegments, up to `TOUCH` and `CROSS`. -/
theorem composed_answers : composedMultisegments.map (fun a => composedMultisegments.map fun b =>
    ((planar.multisegmentInMultisegment a b (reference.context : Context ℚ)).map Relation.flat).toOption) =
    composedRelations.map (List.map some) := by decide +kernel

/-- C93: no entry of the table can be left out: each one occurs for three of nine multisegments. -/
theorem C93_example : ∀ r q s, s ∈ Relation.linearCompose r q → ∃ i < 9, ∃ j < 9, ∃ k < 9,
    let answers := composedMultisegments.map (fun a => composedMultisegments.map fun b =>
      ((planar.multisegmentInMultisegment a b (reference.context : Context ℚ)).map Relation.flat).toOption)
    answers[i]?.bind (·[j]?) = some (some r) ∧ answers[j]?.bind (·[k]?) = some (some q) ∧
      answers[i]?.bind (·[k]?) = some (some s) := by
  rw [composed_answers]
  have key : ∀ r ∈ [Relation.disjoint, .touch, .overlap, .composite, .equal, .component],
      ∀ q ∈ [Relation.disjoint, .touch, .overlap, .composite, .equal, .component],
      ∀ s ∈ Relation.linearCompose r q, ∃ i < 9, ∃ j < 9, ∃ k < 9,
      let answers := composedRelations.map (List.map some)
      answers[i]?.bind (·[j]?) = some (some r) ∧ answers[j]?.bind (·[k]?) = some (some q) ∧
        answers[i]?.bind (·[k]?) = some (some s) := by decide +kernel
  intro r q s h
  refine key r ?_ q ?_ s h
  · cases r <;> simp [Relation.linearCompose] at h ⊢
  · cases q <;> cases r <;> simp [Relation.linearCompose] at h ⊢

/-- C93: a multisegment is a part of a contour that overlaps with a second contour, and only touches the latter; a third
contour meets neither of them. -/
theorem C93_example_contours :
    let m : Multisegment ℚ := ⟨[⟨⟨0, 2⟩, ⟨0, 0⟩⟩, ⟨⟨0, 0⟩, ⟨2, 0⟩⟩]⟩
    let a : Contour ℚ := ⟨[⟨0, 0⟩, ⟨2, 0⟩, ⟨2, 2⟩, ⟨0, 2⟩]⟩
    let b : Contour ℚ := ⟨[⟨2, 0⟩, ⟨4, 0⟩, ⟨4, 2⟩, ⟨2, 2⟩]⟩
    let c : Contour ℚ := ⟨[⟨5, 0⟩, ⟨6, 0⟩, ⟨6, 1⟩]⟩
    SegmentsValid m.segments ∧ a.Simple ∧ b.Simple ∧ c.Simple ∧
      planar.multisegmentInContour m a (reference.context : Context ℚ) = .ok .component ∧
      planar.contourInContour a b (reference.context : Context ℚ) = .ok .overlap ∧
      planar.multisegmentInContour m b (reference.context : Context ℚ) = .ok .touch ∧
      planar.contourInContour b c (reference.context : Context ℚ) = .ok .disjoint ∧
      planar.contourInContour a c (reference.context : Context ℚ) = .ok .disjoint :=
  ⟨segmentsValid_of_check (by decide +kernel), Contour.simple_of_check (by decide +kernel),
    Contour.simple_of_check (by decide +kernel), Contour.simple_of_check (by decide +kernel), by decide +kernel,
    by decide +kernel, by decide +kernel, by decide +kernel, by decide +kernel⟩

/-- C93: a segment overlaps with a second one; the second one is a part of a multisegment, the first one overlaps with it,
and so does the multisegment with another one. -/
theorem C93_example_segments :
    let s : Segment ℚ := ⟨⟨0, 0⟩, ⟨2, 0⟩⟩
    let t : Segment ℚ := ⟨⟨1, 0⟩, ⟨3, 0⟩⟩
    let a : Multisegment ℚ := ⟨[⟨⟨1, 0⟩, ⟨3, 0⟩⟩, ⟨⟨3, 0⟩, ⟨3, 1⟩⟩]⟩
    let b : Multisegment ℚ := ⟨[⟨⟨0, 1⟩, ⟨3, 1⟩⟩, ⟨⟨3, 1⟩, ⟨3, 0⟩⟩]⟩
    s.Nondegenerate ∧ t.Nondegenerate ∧ SegmentsValid a.segments ∧ SegmentsValid b.segments ∧
      planar.segmentInSegment s t (reference.context : Context ℚ) = .overlap ∧
      planar.segmentInMultisegment t a (reference.context : Context ℚ) = .component ∧
      planar.segmentInMultisegment s a (reference.context : Context ℚ) = .overlap ∧
      planar.multisegmentInMultisegment a b (reference.context : Context ℚ) = .ok .overlap ∧
      planar.segmentInMultisegment s b (reference.context : Context ℚ) = .disjoint :=
  ⟨by unfold Segment.Nondegenerate; decide +kernel, by unfold Segment.Nondegenerate; decide +kernel,
    segmentsValid_of_check (by decide +kernel), segmentsValid_of_check (by decide +kernel), by decide +kernel,
    by decide +kernel, by decide +kernel, by decide +kernel, by decide +kernel⟩

end Orient.Props
