import Verif.Props.MultisegmentsComplete
import Verif.Lemmas.SimpleCheck
import Verif.Lemmas.Ways

/-! C30: `TOUCH` and `CROSS` of multisegments. -/

set_option linter.unusedSectionVars false

namespace Orient.Props

open eventsQueue State

variable {K : Type} [Field K] [LinearOrder K] [IsStrictOrderedRing K]

theorem cross_of_sets {S T : Set (Point K)} (hS : ∃ u : Segment K, u.Nondegenerate ∧ u.pts ⊆ S)
    (hT : ∃ u : Segment K, u.Nondegenerate ∧ u.pts ⊆ T) {r : Relation} (h : SetsRel S T r)
    (sound : ¬ SharesPiece S T → r = .cross → ∃ p, CrossesAt S T p)
    (found : ¬ SharesPiece S T → (∃ p, CrossesAt S T p) → r ≠ .touch ∧ r ≠ .disjoint) :
    (r = .cross ↔ ¬ SharesPiece S T ∧ ∃ p, CrossesAt S T p) ∧
    (r = .touch ↔ ¬ SharesPiece S T ∧ (S ∩ T).Nonempty ∧ ¬ ∃ p, CrossesAt S T p) := by
  obtain ⟨-, -, -, -, h5, -⟩ := SetsRel.cases_iff hS hT h
  have meet : (∃ p, CrossesAt S T p) → (S ∩ T).Nonempty := by
    rintro ⟨p, a, b, u, v, h1, -, h3, -⟩
    exact ⟨p, h1 (Segment.start_mem _), h3 (Segment.start_mem _)⟩
  generalize (∃ p, CrossesAt S T p) = X at *
  generalize SharesPiece S T = Y at *
  generalize (S ∩ T).Nonempty = Z at *
  refine ⟨⟨fun e => ?_, fun e => ?_⟩, fun e => ?_, fun e => ?_⟩ <;> grind

/-- C51: `multisegment_in_multisegment` answers `CROSS` only if the operands have no common piece and
there is a point at which two directions of the first one are separated by two directions of the
second one. -/
theorem C51_multisegment_in_multisegment_sound {context : Context K} (hc : context.Exact)
    {a b : Multisegment K} (ha : a.segments ≠ []) (hb : b.segments ≠ [])
    (va : SegmentsValid a.segments) (vb : SegmentsValid b.segments)
    (h : planar.multisegmentInMultisegment a b context = .ok .cross) :
    ¬ SharesPiece (segsPts a.segments) (segsPts b.segments) ∧
      ∃ p, CrossesAt (segsPts a.segments) (segsPts b.segments) p := by
  have hns := ((C18_multisegment_in_multisegment_iff hc ha hb va vb).2.2.2.2.1.mp (.inl h)).2
  refine ⟨hns, ?_⟩
  unfold planar.multisegmentInMultisegment multisegment.relateMultisegment at h
  simp only at h
  split_ifs at h with hd
  · cases h
  exact (runOpenLinear_cross hc (registered (matches_segments b) (matches_segments a) vb.1 va.1)
      vb va (hc.segmentsBox _ hb).le_maxX (hc.segmentsBox _ ha).le_maxX h hns).1 rfl

/-- C51: `multisegment_in_multisegment` tells `CROSS` and `TOUCH` apart if the second operand leaves
each point, at which the operands cross, in at most two directions, or the point is inside of segments
of both of them. -/
theorem C51_multisegment_in_multisegment {context : Context K} (hc : context.Exact)
    {a b : Multisegment K} (ha : a.segments ≠ []) (hb : b.segments ≠ [])
    (va : SegmentsValid a.segments) (vb : SegmentsValid b.segments)
    (two : ∀ p, CrossesAt (segsPts a.segments) (segsPts b.segments) p →
      AtMostTwoWays (segsPts b.segments) p ∨
        ∃ u ∈ a.segments, ∃ v ∈ b.segments, u.Inner p ∧ v.Inner p) :
    let S := segsPts a.segments
    let T := segsPts b.segments
    let answer := planar.multisegmentInMultisegment a b context
    (answer = .ok .cross ↔ ¬ SharesPiece S T ∧ ∃ p, CrossesAt S T p) ∧
    (answer = .ok .touch ↔ ¬ SharesPiece S T ∧ (S ∩ T).Nonempty ∧ ¬ ∃ p, CrossesAt S T p) := by
  intro S T answer
  obtain ⟨r, hr, h⟩ := C18_multisegment_in_multisegment hc ha hb va vb
  have piece : ∀ {l : List (Segment K)}, l ≠ [] → SegmentsValid l →
      ∃ u : Segment K, u.Nondegenerate ∧ u.pts ⊆ segsPts l := fun hl vl => by
    obtain ⟨u, hu⟩ := List.exists_mem_of_ne_nil _ hl
    exact ⟨u, vl.1 u hu, fun x hx => ⟨u, hu, hx⟩⟩
  have e : ∀ r', answer = .ok r' ↔ r = r' := fun r' => by
    simp only [answer, hr, Except.ok.injEq]
  simp only [e]
  refine cross_of_sets (piece ha va) (piece hb vb) h (fun _ hx => ?_) fun hns hx => ?_
  · exact (C51_multisegment_in_multisegment_sound hc ha hb va vb (hr.trans (by rw [hx]))).2
  · have hr' := hr
    unfold planar.multisegmentInMultisegment multisegment.relateMultisegment at hr'
    simp only at hr'
    split_ifs at hr' with hd
    · obtain ⟨p, a', b', u, v, h1, -, h3, -⟩ := hx
      have := box.not_disjointWith (hc.segmentsBox _ hb) (hc.segmentsBox _ ha)
        (h3 (Segment.start_mem _)) (h1 (Segment.start_mem _))
      simp_all
    · obtain ⟨p, hp⟩ := hx
      exact (runOpenLinear_cross hc (registered (matches_segments b) (matches_segments a) vb.1 va.1)
        vb va (hc.segmentsBox _ hb).le_maxX (hc.segmentsBox _ ha).le_maxX hr' hns).2
        ⟨p, hp, two p hp⟩

/-- C51: exchanging the operands of `multisegment_in_multisegment` gives the complement of the relation
if both of them leave the points, at which they cross, in at most two directions, or the points are
inside of segments of both of them. -/
theorem C51_swap {context : Context K} (hc : context.Exact)
    {a b : Multisegment K} (ha : a.segments ≠ []) (hb : b.segments ≠ [])
    (va : SegmentsValid a.segments) (vb : SegmentsValid b.segments)
    (two : ∀ p, CrossesAt (segsPts a.segments) (segsPts b.segments) p →
      (AtMostTwoWays (segsPts a.segments) p ∧ AtMostTwoWays (segsPts b.segments) p) ∨
        ∃ u ∈ a.segments, ∃ v ∈ b.segments, u.Inner p ∧ v.Inner p) :
    planar.multisegmentInMultisegment b a context =
      (planar.multisegmentInMultisegment a b context).map Relation.complement := by
  obtain ⟨x1, x2, x3, x4, -, x6⟩ := C18_multisegment_in_multisegment_iff hc ha hb va vb
  obtain ⟨y1, y2, y3, y4, -, y6⟩ := C18_multisegment_in_multisegment_iff hc hb ha vb va
  obtain ⟨x7, x8⟩ := C51_multisegment_in_multisegment hc ha hb va vb fun p hp =>
    (two p hp).imp And.right id
  obtain ⟨y7, y8⟩ := C51_multisegment_in_multisegment hc hb ha vb va fun p hp =>
    (two p hp.symm).imp And.left fun ⟨u, hu, v, hv, h1, h2⟩ => ⟨v, hv, u, hu, h2, h1⟩
  obtain ⟨r, hr, h⟩ := C18_multisegment_in_multisegment hc ha hb va vb
  have sym : SharesPiece (segsPts b.segments) (segsPts a.segments) ↔
      SharesPiece (segsPts a.segments) (segsPts b.segments) :=
    ⟨fun ⟨u, h1, h2, h3⟩ => ⟨u, h1, h3, h2⟩, fun ⟨u, h1, h2, h3⟩ => ⟨u, h1, h3, h2⟩⟩
  have symc : (∃ p, CrossesAt (segsPts b.segments) (segsPts a.segments) p) ↔
      ∃ p, CrossesAt (segsPts a.segments) (segsPts b.segments) p :=
    ⟨fun ⟨p, h⟩ => ⟨p, h.symm⟩, fun ⟨p, h⟩ => ⟨p, h.symm⟩⟩
  simp only [sym, symc, Set.inter_comm (segsPts b.segments)] at y1 y2 y3 y4 y6 y7 y8
  rw [hr] at x1 x2 x3 x4 x6 x7 x8 ⊢
  change _ = Except.ok r.complement
  cases r
  · exact y6.mpr (x6.mp rfl)
  · exact y8.mpr (x8.mp rfl)
  · exact y7.mpr (x7.mp rfl)
  · have := x4.mp rfl
    exact y4.mpr ⟨this.2.1, this.1, this.2.2⟩
  all_goals first
    | exact h.elim
    | exact y3.mpr (x2.mp rfl)
    | exact y2.mpr (x3.mp rfl)
    | exact y1.mpr (x1.mp rfl).symm

/-- C51: `multisegment_in_contour` tells `CROSS` and `TOUCH` apart for all simple contours. -/
theorem C51_multisegment_in_contour {context : Context K} (hc : context.Exact)
    {a : Multisegment K} {b : Contour K} (ha : a.segments ≠ []) (va : SegmentsValid a.segments)
    (sb : b.Simple) :
    let S := segsPts a.segments
    let answer := planar.multisegmentInContour a b context
    (answer = .ok .cross ↔ ¬ SharesPiece S b.pts ∧ ∃ p, CrossesAt S b.pts p) ∧
    (answer = .ok .touch ↔ ¬ SharesPiece S b.pts ∧ (S ∩ b.pts).Nonempty ∧
      ¬ ∃ p, CrossesAt S b.pts p) := by
  intro S answer
  have hb : b.vertices ≠ [] := by
    intro e
    have := sb.three
    rw [e] at this
    simp at this
  have vb := sb.valid
  have hne : b.edgeList ≠ [] := by
    have := hb
    rw [← List.length_pos_iff] at this ⊢
    rwa [Contour.length_edgeList]
  obtain ⟨r, hr, h⟩ := C18_multisegment_in_contour hc ha hb va vb
  have piece : ∀ {l : List (Segment K)}, l ≠ [] → SegmentsValid l →
      ∃ u : Segment K, u.Nondegenerate ∧ u.pts ⊆ segsPts l := fun hl vl => by
    obtain ⟨u, hu⟩ := List.exists_mem_of_ne_nil _ hl
    exact ⟨u, vl.1 u hu, fun x hx => ⟨u, hu, hx⟩⟩
  have e : ∀ r', answer = .ok r' ↔ r = r' := fun r' => by
    simp only [answer, hr, Except.ok.injEq]
  simp only [e]
  unfold planar.multisegmentInContour contour.relateMultisegment at hr
  simp only at hr
  refine cross_of_sets (piece ha va) (piece hne vb) h (fun hns hx => ?_) fun hns hx => ?_
  · subst hx
    split_ifs at hr with hd
    · cases hr
    exact (runOpenLinear_cross hc (registered (matches_edges b) (matches_segments a) vb.1 va.1)
      vb va (hc.contourBox _ hb).le_maxX (hc.segmentsBox _ ha).le_maxX hr hns).1 rfl
  · split_ifs at hr with hd
    · obtain ⟨p, a', b', u, v, h1, -, h3, -⟩ := hx
      have := box.not_disjointWith (hc.contourBox _ hb) (hc.segmentsBox _ ha)
        (h3 (Segment.start_mem _)) (h1 (Segment.start_mem _))
      simp_all
    · obtain ⟨p, hp⟩ := hx
      exact (runOpenLinear_cross hc (registered (matches_edges b) (matches_segments a) vb.1 va.1)
        vb va (hc.contourBox _ hb).le_maxX (hc.segmentsBox _ ha).le_maxX hr hns).2
        ⟨p, hp, .inl (sb.atMostTwoWays p)⟩

/-- A multisegment which crosses a triangle at a vertex, and one which touches it there. -/
example : let a : Multisegment ℚ := ⟨[⟨⟨2, 1⟩, ⟨4, 0⟩⟩, ⟨⟨4, 0⟩, ⟨6, 0⟩⟩]⟩
    let a' : Multisegment ℚ := ⟨[⟨⟨5, 2⟩, ⟨4, 0⟩⟩, ⟨⟨4, 0⟩, ⟨6, 0⟩⟩]⟩
    let b : Contour ℚ := ⟨[⟨0, 0⟩, ⟨4, 0⟩, ⟨0, 4⟩]⟩
    let c : Multisegment ℚ := ⟨b.edgeList⟩
    (a.segments ≠ [] ∧ a'.segments ≠ [] ∧ c.segments ≠ []) ∧ SegmentsValid a.segments ∧
    SegmentsValid a'.segments ∧ SegmentsValid c.segments ∧ b.Simple ∧
    (∀ p, AtMostTwoWays (segsPts c.segments) p) ∧
    planar.multisegmentInContour a b reference.context = .ok .cross ∧
    planar.multisegmentInContour a' b reference.context = .ok .touch ∧
    planar.multisegmentInMultisegment a c reference.context = .ok .cross ∧
    planar.multisegmentInMultisegment a' c reference.context = .ok .touch ∧
    planar.multisegmentInMultisegment c a reference.context = .ok .cross ∧
    planar.multisegmentInMultisegment c a' reference.context = .ok .touch := by
  intro a a' b c
  have sb : b.Simple := Contour.simple_of_check (by decide +kernel)
  exact ⟨⟨by simp [a], by simp [a'], by decide +kernel⟩, segmentsValid_of_check (by decide +kernel),
    segmentsValid_of_check (by decide +kernel), sb.valid, sb, sb.atMostTwoWays, by decide +kernel⟩

/-- C30 fails: two valid multisegments whose directions alternate around the common point `(2, 1)`,
but the answer is `TOUCH`.  (The code compares the angle of two of the directions only.) -/
theorem C30_counterexample :
    ∃ a b : Multisegment ℚ, SegmentsValid a.segments ∧ SegmentsValid b.segments ∧
      CrossesAt (segsPts a.segments) (segsPts b.segments) ⟨2, 1⟩ ∧
      planar.multisegmentInMultisegment a b reference.context = .ok .touch := by
  refine ⟨⟨[⟨⟨0, 1⟩, ⟨0, 0⟩⟩, ⟨⟨0, 2⟩, ⟨0, 1⟩⟩, ⟨⟨3, 2⟩, ⟨2, 1⟩⟩, ⟨⟨0, 2⟩, ⟨2, 1⟩⟩]⟩,
    ⟨[⟨⟨2, 1⟩, ⟨2, 3⟩⟩, ⟨⟨3, 1⟩, ⟨1, 0⟩⟩, ⟨⟨0, 1⟩, ⟨3, 1⟩⟩]⟩,
    segmentsValid_of_check (by decide +kernel), segmentsValid_of_check (by decide +kernel), ?_,
    by decide +kernel⟩
  refine ⟨⟨3, 2⟩, ⟨0, 2⟩, ⟨2, 3⟩, ⟨0, 1⟩, ?_, ?_, ?_, ?_, ?_, ?_⟩
  · refine fun x hx => ⟨⟨⟨3, 2⟩, ⟨2, 1⟩⟩, by simp, ?_⟩
    rw [← Segment.pts_reverse]; exact hx
  · refine fun x hx => ⟨⟨⟨0, 2⟩, ⟨2, 1⟩⟩, by simp, ?_⟩
    rw [← Segment.pts_reverse]; exact hx
  · exact fun x hx => ⟨⟨⟨2, 1⟩, ⟨2, 3⟩⟩, by simp, hx⟩
  · refine fun x hx => ⟨⟨⟨0, 1⟩, ⟨3, 1⟩⟩, by simp, ?_⟩
    obtain ⟨t, h0, h1, rfl⟩ := hx
    refine ⟨2 / 3 * (1 - t), by nlinarith, by nlinarith, ?_⟩
    unfold lerp
    refine Point.ext (by simp only; ring) (by simp only; ring)
  · unfold InAngle cross; decide +kernel
  · unfold InAngle cross; decide +kernel

end Orient.Props
