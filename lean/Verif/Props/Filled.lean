import Verif.Spec.Filled
import Verif.Props.LinearKinds
import Verif.Props.ExactSegmentsAll

/-! C90: relations to a contour and to the region in it. -/

set_option linter.unusedSectionVars false

namespace Orient.Props

variable {K : Type} [Field K] [LinearOrder K] [IsStrictOrderedRing K]

open Segment

/-- Three of the answers mean that points of the boundary are met, but not only such points. -/
theorem mem_three {S I B E : Set (Point K)} {r : Relation} (h : LinearCompoundRel S I B E r) (hn : ¬ S ⊆ B)
    (hm : (S ∩ B).Nonempty) (d1 : I ∩ B = ∅) (d2 : B ∩ E = ∅) : r ∈ [Relation.touch, .cross, .enclosed] := by
  obtain ⟨x, x1, x2⟩ := hm
  cases r with
  | disjoint => exact absurd ⟨x2, h x1⟩ (Set.eq_empty_iff_forall_notMem.mp d2 x)
  | within => exact absurd ⟨h x1, x2⟩ (Set.eq_empty_iff_forall_notMem.mp d1 x)
  | component => exact absurd h hn
  | touch | cross | enclosed => simp
  | _ => exact h.elim

/-- Answers which say that the boundary is not met. -/
theorem mem_apart {S I B E : Set (Point K)} {r : Relation} (h : LinearCompoundRel S I B E r) (hm : S ∩ B = ∅)
    (hne : S.Nonempty) : r ∈ [Relation.disjoint, .cross, .within] := by
  obtain ⟨x, hx⟩ := hne
  cases r with
  | component => exact absurd ⟨hx, h hx⟩ (Set.eq_empty_iff_forall_notMem.mp hm x)
  | touch | enclosed => exact absurd hm h.2.2.ne_empty
  | disjoint | within | cross => simp
  | _ => exact h.elim

section

variable {context : Context K} (hc : context.Exact)
include hc

/-- C90: `segment_in_contour` restricts `segment_in_region`, for all segments and all simple contours. -/
theorem C90_segment {s : Segment K} (hs : s.Nondegenerate) {c : Contour K} (h : c.Simple) :
    ∃ r q, planar.segmentInContour s c context = .ok r ∧ planar.segmentInRegion s c context = .ok q ∧
      q ∈ r.segmentFilled := by
  obtain ⟨r, hr, hrel⟩ := segmentInContour_spec hc hs h
  obtain ⟨q, hq, -⟩ := C66_always_answers hc hs h
  refine ⟨r, q, hr, hq, ?_⟩
  have hX := C08_cross hc hs h
  rw [hr, Except.ok.injEq] at hX
  obtain ⟨q', hq', ans⟩ := C83_segment_in_region hc hs h
  obtain rfl : q = q' := Except.ok.inj (hq.symm.trans hq')
  obtain ⟨a1, a2, -⟩ := (ans q).mpr rfl
  have piece : (∃ e ∈ c.edgeList, s.pts ⊆ e.pts) → SharesPiece s.pts c.pts :=
    fun ⟨e, he, k⟩ => ⟨s, hs, le_rfl, k.trans (subset_segsPts he)⟩
  have meets : CrossesEdges c s → (s.pts ∩ c.pts).Nonempty := by
    rintro (⟨e, he, p, k, -⟩ | ⟨p, v, q, k, -, hv, -⟩)
    · have : p ∈ s.pts ∩ e.pts := by rw [k]; rfl
      exact ⟨p, this.1, subset_segsPts he this.2⟩
    · exact ⟨v, hv, subset_segsPts k (Segment.finish_mem _)⟩
  have cases := segmentInRegion_cases hc hs h hq
  cases r with
  | component => rw [a2 hrel]; simp [Relation.segmentFilled]
  | disjoint =>
    rcases cases with ⟨-, k⟩ | ⟨-, k⟩ | ⟨-, k⟩ | ⟨k, -⟩
    · exact absurd hrel (meets k).ne_empty
    · exact absurd hrel (piece k).inter_nonempty.ne_empty
    · rcases k with rfl | rfl <;> simp [Relation.segmentFilled]
    · exact absurd hrel k.ne_empty
  | cross =>
    obtain ⟨sub, k⟩ := hX.mp rfl
    rw [a1 ?_]
    · simp [Relation.segmentFilled]
    · refine k.imp ?_ id
      rintro ⟨e, he, p, hp, k1, k2⟩
      exact ⟨e, he, p, (sub e he).eq_singleton_of_mem hp, k1, k2⟩
  | touch =>
    have sub : ∀ e ∈ c.edgeList, (s.pts ∩ e.pts).Subsingleton := by
      intro e he
      by_contra hn
      exact hrel.1 ((sharesPiece_iff _ _).mpr ⟨e, he, Set.not_subsingleton_iff.mp hn⟩)
    rcases cases with ⟨-, k⟩ | ⟨-, k⟩ | ⟨k, -⟩ | ⟨-, -, -, k, -⟩
    · refine absurd (hX.mpr ⟨sub, k.imp ?_ id⟩) (by simp)
      rintro ⟨e, he, p, hp, k1, k2⟩
      exact ⟨e, he, p, by rw [hp]; rfl, k1, k2⟩
    · exact absurd (piece k) hrel.1
    · exact absurd k hrel.2.2.ne_empty
    · rcases k with rfl | rfl <;> simp [Relation.segmentFilled]
  | overlap =>
    rcases cases with ⟨rfl, -⟩ | ⟨-, k⟩ | ⟨k, -⟩ | ⟨-, -, -, k, -⟩
    · simp [Relation.segmentFilled]
    · exact absurd k hrel.1
    · exact absurd k hrel.2.inter_nonempty.ne_empty
    · rcases k with rfl | rfl <;> simp [Relation.segmentFilled]
  | _ => exact hrel.elim

/-- C90: `multisegment_in_contour` restricts `multisegment_in_region`, also where the latter is wrong. -/
theorem C90_multisegment {a : Multisegment K} (ha : a.segments ≠ []) (va : SegmentsValid a.segments) {c : Contour K}
    (h : c.Simple) : ∃ r q, planar.multisegmentInContour a c context = .ok r ∧
      planar.multisegmentInRegion a c context = .ok q ∧ q ∈ r.multisegmentFilled := by
  obtain ⟨r, hr, hrel⟩ := C18_multisegment_in_contour hc ha h.ne_nil va h.valid
  obtain ⟨x, -⟩ := C51_multisegment_in_contour hc ha va h
  obtain ⟨q, hq, hq'⟩ := C34_multisegment_in_region hc (b := c) ha va h
  refine ⟨r, q, hr, hq, ?_⟩
  have ne : (segsPts a.segments).Nonempty := segsPts_nonempty ha
  obtain ⟨u, hu⟩ := List.exists_mem_of_ne_nil _ (Contour.edgeList_ne_nil h.ne_nil)
  rcases hq' with k | ⟨rfl, k1, k2, k3⟩
  · cases r with
    | equal | component =>
      have sub : segsPts a.segments ⊆ c.pts := by
        first
          | exact hrel.1
          | exact hrel.le
      have : q = .component := LinearCompoundRel.unique ne c.interior_pts c.interior_exterior c.exterior_pts k
        (r' := .component) sub
      rw [this]; simp [Relation.multisegmentFilled]
    | disjoint => exact mem_apart k hrel ne
    | cross =>
      obtain ⟨k1, p, k2⟩ := x.mp hr
      have : q = .cross := LinearCompoundRel.unique ne c.interior_pts c.interior_exterior c.exterior_pts k
        (r' := .cross) (h.sides_of_crossesAt k1 k2)
      rw [this]; simp [Relation.multisegmentFilled]
    | touch =>
      refine mem_three k (fun hn => hrel.2 ?_) hrel.1 c.interior_pts c.exterior_pts
      obtain ⟨v, hv⟩ := List.exists_mem_of_ne_nil _ ha
      exact ⟨v, va.1 v hv, subset_segsPts hv, (subset_segsPts hv).trans hn⟩
    | overlap => exact mem_three k hrel.1 hrel.2.2.inter_nonempty c.interior_pts c.exterior_pts
    | composite =>
      refine mem_three k (fun hn => hrel.ne (hrel.1.antisymm hn)) ?_ c.interior_pts c.exterior_pts
      exact ⟨u.start, hrel.1 (subset_segsPts hu u.start_mem), subset_segsPts hu u.start_mem⟩
    | _ => exact hrel.elim
  · have piece : SharesPiece (segsPts a.segments) c.pts :=
      ⟨u, h.nondegenerate hu, (subset_segsPts hu).trans k1, subset_segsPts hu⟩
    have nsub : ¬ segsPts a.segments ⊆ c.pts := fun k => by
      obtain ⟨y, y1, y2⟩ := k2
      exact y2.1 (k y1)
    cases r with
    | equal => exact absurd hrel.le nsub
    | component => exact absurd hrel.1 nsub
    | disjoint => exact absurd hrel piece.inter_nonempty.ne_empty
    | cross | touch => exact absurd piece hrel.2
    | overlap | composite => simp [Relation.multisegmentFilled]
    | _ => exact hrel.elim

/-- C90: `contour_in_contour` restricts `contour_in_region`, also where the former is wrong. -/
theorem C90_contour {a b : Contour K} (ha : a.Simple) (hb : b.Simple) : ∃ r q,
    planar.contourInContour a b context = .ok r ∧ planar.contourInRegion a b context = .ok q ∧
      q ∈ r.contourFilled := by
  obtain ⟨r, hr, hrel⟩ := C36_contour_in_contour_partial hc ha hb
  obtain ⟨q, hq, k⟩ := C33_contour_in_region hc ha hb
  refine ⟨r, q, hr, hq, ?_⟩
  have ne := ha.exists_mem
  obtain ⟨u, hu⟩ := List.exists_mem_of_ne_nil _ (Contour.edgeList_ne_nil ha.ne_nil)
  have three : ¬ SharesPiece a.pts b.pts → (a.pts ∩ b.pts).Nonempty →
      q ∈ [Relation.touch, .cross, .enclosed] := fun h1 h2 =>
    mem_three k (fun hn => h1 ⟨u, ha.nondegenerate hu, subset_segsPts hu, (subset_segsPts hu).trans hn⟩) h2
      b.interior_pts b.exterior_pts
  have cross : (a.pts ∩ b.interior).Nonempty ∧ (a.pts ∩ b.exterior).Nonempty → q = .cross := fun h' =>
    LinearCompoundRel.unique ne b.interior_pts b.interior_exterior b.exterior_pts k (r' := .cross) h'
  rcases hrel with hrel | ⟨rfl, hrel, -⟩
  · cases r with
    | equal =>
      have : q = .component := LinearCompoundRel.unique ne b.interior_pts b.interior_exterior b.exterior_pts k
        (r' := .component) hrel.le
      rw [this]; simp [Relation.contourFilled]
    | overlap =>
      exact mem_three k (fun hn => hrel.1 (hb.pts_eq_of_subset ha hn)) hrel.2.inter_nonempty b.interior_pts
        b.exterior_pts
    | cross => rw [cross hrel.2]; simp [Relation.contourFilled]
    | touch => exact three hrel.1 hrel.2.1
    | disjoint =>
      have h1 := mem_apart k hrel ne
      simp only [List.mem_cons, List.not_mem_nil, or_false] at h1
      rcases h1 with rfl | rfl | rfl
      · simp [Relation.contourFilled]
      · exact absurd k.2 (Contour.not_both_of_disjoint hrel k.1)
      · simp [Relation.contourFilled]
    | _ => exact hrel.elim
  · rw [cross hrel.2]; simp [Relation.contourFilled]

/-- C90: the relation of a contour, given by its edges, to another contour, is told by the relation to the region and
the other way around: there is no exception. -/
theorem C90_edges {a b : Contour K} (ha : a.Simple) (hb : b.Simple) : ∃ r q,
    planar.multisegmentInContour ⟨a.edgeList⟩ b context = .ok r ∧ planar.contourInRegion a b context = .ok q ∧
      (r = .touch → q = .touch ∨ q = .enclosed) ∧ (r = .cross → q = .cross) ∧
      (q = .cross → r = .cross ∨ r = .overlap) := by
  obtain ⟨q, hq, k⟩ := C33_contour_in_region hc ha hb
  obtain ⟨r, hr, -⟩ := C18_multisegment_in_contour hc (a := ⟨a.edgeList⟩) (Contour.edgeList_ne_nil ha.ne_nil) hb.ne_nil
    ha.valid hb.valid
  have hrel := (C89_contours hc ha hb r).mp hr
  have ne := ha.exists_mem
  refine ⟨r, q, hr, hq, ?_, ?_, ?_⟩
  · rintro rfl
    obtain ⟨u, hu⟩ := List.exists_mem_of_ne_nil _ (Contour.edgeList_ne_nil ha.ne_nil)
    have h1 := mem_three k (fun hn => hrel.1 ⟨u, ha.nondegenerate hu, subset_segsPts hu, (subset_segsPts hu).trans hn⟩)
      hrel.2.1 b.interior_pts b.exterior_pts
    simp only [List.mem_cons, List.not_mem_nil, or_false] at h1
    rcases h1 with rfl | rfl | rfl
    · simp
    · exact absurd k hrel.2.2
    · simp
  · rintro rfl
    exact LinearCompoundRel.unique ne b.interior_pts b.interior_exterior b.exterior_pts k (r' := .cross) hrel.2
  · rintro rfl
    cases r with
    | equal =>
      obtain ⟨y, y1, y2⟩ := k.1
      exact absurd (hrel.le y1) y2.1
    | overlap | cross => simp
    | touch => exact absurd k hrel.2.2
    | disjoint => exact absurd k.2 (Contour.not_both_of_disjoint hrel k.1)
    | _ => exact hrel.elim

end

/-- A concave contour: a square with a notch. -/
def filledNotch : Contour ℚ := ⟨[⟨0, 0⟩, ⟨8, 0⟩, ⟨8, 8⟩, ⟨6, 8⟩, ⟨4, 4⟩, ⟨2, 8⟩, ⟨0, 8⟩]⟩

theorem filledNotch_simple : filledNotch.Simple := Contour.simple_of_check (by decide +kernel)

/-- A segment for each possible pair of answers. -/
def filledSegments : List (Segment ℚ) :=
  [⟨⟨9, 0⟩, ⟨9, 1⟩⟩, ⟨⟨1, 1⟩, ⟨2, 1⟩⟩, ⟨⟨8, 1⟩, ⟨9, 1⟩⟩, ⟨⟨0, 1⟩, ⟨8, 1⟩⟩, ⟨⟨1, 1⟩, ⟨9, 1⟩⟩,
    ⟨⟨8, 6⟩, ⟨8, 9⟩⟩, ⟨⟨5, 6⟩, ⟨1, -2⟩⟩, ⟨⟨5, 6⟩, ⟨3, 2⟩⟩, ⟨⟨1, 0⟩, ⟨2, 0⟩⟩]

theorem filledSegments_nondegenerate : ∀ s ∈ filledSegments, s.Nondegenerate := by
  unfold Segment.Nondegenerate
  decide +kernel

/-- C90: no entry of the table for segments can be left out. -/
theorem C90_example_segments : ∀ r q, q ∈ r.segmentFilled → ∃ s ∈ filledSegments,
    planar.segmentInContour s filledNotch (reference.context : Context ℚ) = .ok r ∧
      planar.segmentInRegion s filledNotch (reference.context : Context ℚ) = .ok q := by
  have key : ∀ r ∈ [Relation.disjoint, .touch, .cross, .overlap, .component], ∀ q ∈ r.segmentFilled, ∃ s ∈ filledSegments,
      planar.segmentInContour s filledNotch (reference.context : Context ℚ) = .ok r ∧
        planar.segmentInRegion s filledNotch (reference.context : Context ℚ) = .ok q := by decide +kernel
  intro r q hq
  refine key r ?_ q hq
  cases r <;> simp [Relation.segmentFilled] at hq ⊢

/-- A triangle. -/
def filledTriangle : Contour ℚ := ⟨[⟨0, 0⟩, ⟨8, 0⟩, ⟨0, 8⟩]⟩

theorem filledTriangle_simple : filledTriangle.Simple := Contour.simple_of_check (by decide +kernel)

/-- A multisegment for each possible pair of answers. -/
def filledMultisegments : List (Multisegment ℚ) :=
  let e : List (Segment ℚ) := [⟨⟨0, 0⟩, ⟨8, 0⟩⟩, ⟨⟨8, 0⟩, ⟨0, 8⟩⟩, ⟨⟨0, 8⟩, ⟨0, 0⟩⟩]
  let i : Segment ℚ := ⟨⟨1, 1⟩, ⟨2, 1⟩⟩
  let o : Segment ℚ := ⟨⟨9, 0⟩, ⟨9, 1⟩⟩
  let i' : Segment ℚ := ⟨⟨1, 0⟩, ⟨2, 1⟩⟩
  let o' : Segment ℚ := ⟨⟨1, 0⟩, ⟨2, -1⟩⟩
  [⟨[o]⟩, ⟨[i]⟩, ⟨[o, i]⟩, ⟨[o']⟩, ⟨[i']⟩, ⟨[i', o]⟩, ⟨[⟨⟨1, -1⟩, ⟨1, 1⟩⟩]⟩, ⟨[⟨⟨4, 0⟩, ⟨9, 0⟩⟩]⟩,
    ⟨[⟨⟨4, 0⟩, ⟨8, 0⟩⟩, i]⟩, ⟨[⟨⟨4, 0⟩, ⟨9, 0⟩⟩, i]⟩, ⟨o :: e⟩, ⟨i :: e⟩, ⟨⟨⟨1, -1⟩, ⟨1, 1⟩⟩ :: e⟩, ⟨e⟩, ⟨[⟨⟨4, 0⟩, ⟨8, 0⟩⟩]⟩]

theorem filledMultisegments_valid : ∀ m ∈ filledMultisegments, m.segments ≠ [] ∧ SegmentsValid m.segments := by
  have key : ∀ m ∈ filledMultisegments, m.segments ≠ [] ∧ reference.isValid m.segments = true := by decide +kernel
  exact fun m hm => ⟨(key m hm).1, segmentsValid_of_check (key m hm).2⟩

/-- C90: no entry of the table for multisegments can be left out. -/
theorem C90_example_multisegments : ∀ r q, q ∈ r.multisegmentFilled → ∃ m ∈ filledMultisegments,
    planar.multisegmentInContour m filledTriangle (reference.context : Context ℚ) = .ok r ∧
      planar.multisegmentInRegion m filledTriangle (reference.context : Context ℚ) = .ok q := by
  have key : ∀ r ∈ [Relation.disjoint, .touch, .cross, .overlap, .composite, .equal, .component],
      ∀ q ∈ r.multisegmentFilled, ∃ m ∈ filledMultisegments,
        planar.multisegmentInContour m filledTriangle (reference.context : Context ℚ) = .ok r ∧
          planar.multisegmentInRegion m filledTriangle (reference.context : Context ℚ) = .ok q := by decide +kernel
  intro r q hq
  refine key r ?_ q hq
  cases r <;> simp [Relation.multisegmentFilled] at hq ⊢

/-- A contour for each possible pair of answers; about the sixth one `contour_in_contour` is wrong. -/
def filledContours : List (Contour ℚ) :=
  [⟨[⟨9, 0⟩, ⟨10, 0⟩, ⟨9, 1⟩]⟩, ⟨[⟨1, 1⟩, ⟨2, 1⟩, ⟨1, 2⟩]⟩, filledTriangle, ⟨[⟨8, 0⟩, ⟨9, 0⟩, ⟨9, 1⟩]⟩,
    ⟨[⟨0, 0⟩, ⟨2, 1⟩, ⟨1, 2⟩]⟩, ⟨[⟨2, 0⟩, ⟨4, -2⟩, ⟨6, 0⟩, ⟨4, 2⟩]⟩, ⟨[⟨1, -1⟩, ⟨3, -1⟩, ⟨2, 1⟩]⟩,
    ⟨[⟨0, 0⟩, ⟨0, -2⟩, ⟨8, -2⟩, ⟨8, 0⟩]⟩, ⟨[⟨0, 0⟩, ⟨8, 0⟩, ⟨2, 2⟩]⟩, ⟨[⟨0, 0⟩, ⟨8, 0⟩, ⟨8, 2⟩]⟩,
    ⟨[⟨0, 0⟩, ⟨8, 0⟩, ⟨8, 2⟩, ⟨1, 2⟩]⟩]

theorem filledContours_simple : ∀ c ∈ filledContours, c.Simple := by
  have key : ∀ c ∈ filledContours, reference.isSimple c = true := by decide +kernel
  exact fun c hm => Contour.simple_of_check (key c hm)

/-- C90: no entry of the table for contours can be left out. -/
theorem C90_example_contours : ∀ r q, q ∈ r.contourFilled → ∃ c ∈ filledContours,
    planar.contourInContour c filledTriangle (reference.context : Context ℚ) = .ok r ∧
      planar.contourInRegion c filledTriangle (reference.context : Context ℚ) = .ok q := by
  have key : ∀ r ∈ [Relation.disjoint, .touch, .cross, .overlap, .equal],
      ∀ q ∈ r.contourFilled, ∃ c ∈ filledContours,
        planar.contourInContour c filledTriangle (reference.context : Context ℚ) = .ok r ∧
          planar.contourInRegion c filledTriangle (reference.context : Context ℚ) = .ok q := by decide +kernel
  intro r q hq
  refine key r ?_ q hq
  cases r <;> simp [Relation.contourFilled] at hq ⊢

end Orient.Props
