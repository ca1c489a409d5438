import Verif.Lemmas.RegionSegment
import Verif.Props.SegmentInRegion
import Verif.Props.PolygonRelations
import Verif.Props.MultiCheck

/-! C13: `segment_in_region` for segments which do not run along edges. -/

set_option linter.unusedSectionVars false

namespace Orient.Props

variable {K : Type} [Field K] [LinearOrder K] [IsStrictOrderedRing K]

open Segment

/-- The contour goes around its interior counterclockwise. -/
def Counterclockwise (c : Contour K) : Prop := ∃ p v q, c.LeastCorner p v q ∧ 0 < cross p v q

/-- Segments with at most one common point. -/
theorem relation_of_subsingleton {context : Context K} (hc : context.Exact) {s e : Segment K}
    (hs : s.Nondegenerate) (he : e.Nondegenerate) (hsub : (s.pts ∩ e.pts).Subsingleton) :
    Orient.segment.relateSegment e s context = .disjoint ∨
        Orient.segment.relateSegment e s context = .touch ∨
        Orient.segment.relateSegment e s context = .cross := by
  have hr : SegmentsRel s e (Orient.segment.relateSegment e s context) := hc.relation s e hs he
  generalize Orient.segment.relateSegment e s context = r at hr
  have hnt := pts_nontrivial he
  have hst := pts_nontrivial hs
  cases r <;> simp only [SegmentsRel] at hr <;> simp only [reduceCtorEq, or_self, or_false, or_true, true_or]
  · exact absurd (hr.2.2) (Set.not_nontrivial_iff.mpr hsub)
  · rw [Set.inter_eq_right.mpr hr.1] at hsub
    exact absurd hnt (Set.not_nontrivial_iff.mpr hsub)
  · rw [hr, Set.inter_self] at hsub
    exact absurd hnt (Set.not_nontrivial_iff.mpr hsub)
  · rw [Set.inter_eq_left.mpr hr.1] at hsub
    exact absurd hst (Set.not_nontrivial_iff.mpr hsub)

/-- C43 (the part of C13 that holds): the answer of `segment_in_region` is right for a segment which has no common piece with the
contour, provided that the contour is counterclockwise, or an endpoint of the segment is off the contour,
or no endpoint of the segment is a vertex of the contour. -/
theorem C43_segment_in_region {context : Context K} (hc : context.Exact) {s : Segment K}
    (hs : s.Nondegenerate) {c : Contour K} (h : c.Simple) (hno : ¬ SharesPiece s.pts c.pts)
    (hside : Counterclockwise c ∨ s.start ∉ c.pts ∨ s.finish ∉ c.pts ∨
      (s.start ∉ c.vertices ∧ s.finish ∉ c.vertices)) :
    ∃ r, planar.segmentInRegion s c context = .ok r ∧ SegmentRegionRel s c r := by
  have hsub : ∀ e ∈ c.edgeList, (s.pts ∩ e.pts).Subsingleton := by
    intro e he
    by_contra hn
    exact hno ((sharesPiece_iff _ _).mpr ⟨e, he, Set.not_subsingleton_iff.mp hn⟩)
  have hrel : ∀ e ∈ context.contourSegments c, Orient.segment.relateSegment e s context = .disjoint ∨
        Orient.segment.relateSegment e s context = .touch ∨
        Orient.segment.relateSegment e s context = .cross := by
    rw [hc.contourSegments]
    exact fun e he => relation_of_subsingleton hc hs (h.nondegenerate he) (hsub e he)
  obtain ⟨r, hr, hrel'⟩ := segmentInContour_spec hc hs h
  have hX := C08_cross hc hs h
  rw [hr] at hX
  have hX : r = .cross ↔ Passes c s := by
    constructor
    · rintro rfl; exact (hX.mp rfl).2
    · intro hp; exact Except.ok.inj (hX.mpr ⟨hsub, hp⟩)
  have hr : region.relateSegmentToContour c s context = .ok r :=
    (region.relateSegmentToContour_eq hrel).trans hr
  have loc : ∀ p l, region.locatePoint c p context = l ↔ Locates c p l :=
    fun p l => C10_point_in_region_unique hc p c l
  unfold planar.segmentInRegion region.relateSegment
  simp only [hr, bind, Except.bind, pure, Except.pure]
  have disj : ∀ {p}, p ∈ c.interior → p ∈ c.exterior → False := fun a b => Contour.not_both a b
  have offi : ∀ {p}, p ∈ c.interior → p ∉ c.pts := fun a => a.1
  have offe : ∀ {p}, p ∈ c.exterior → p ∉ c.pts := fun a => a.1
  by_cases hcr : r = .cross
  · subst hcr
    exact ⟨.cross, by simp, h.passes hs hsub (hX.mp rfl)⟩
  have hnp : ¬ Passes c s := fun hp => hcr (hX.mpr hp)
  have same := fun {x y} => h.same_side hs hsub hnp (x := x) (y := y)
  -- the answer given the side of one point
  have ins : ∀ {x}, x ∈ s.pts → x ∈ c.interior → (s.pts ∩ c.pts).Nonempty → SegmentRegionRel s c .enclosed := by
    intro x hx hi hne
    refine ⟨Set.eq_empty_iff_forall_notMem.mpr fun y hy => ?_, ⟨x, hx, hi⟩, hne⟩
    exact disj ((same hx hy.1 (offi hi) (offe hy.2)).mp hi) hy.2
  have outs : ∀ {x}, x ∈ s.pts → x ∈ c.exterior → (s.pts ∩ c.pts).Nonempty → SegmentRegionRel s c .touch := by
    intro x hx hi hne
    refine ⟨Set.eq_empty_iff_forall_notMem.mpr fun y hy => ?_, ⟨x, hx, hi⟩, hne⟩
    exact disj ((same hy.1 hx (offi hy.2) (offe hi)).mp hy.2) hi
  by_cases hdi : r = .disjoint
  · subst hdi
    have hd : s.pts ∩ c.pts = ∅ := hrel'
    have off : ∀ {x}, x ∈ s.pts → x ∉ c.pts := fun hx hx' => Set.eq_empty_iff_forall_notMem.mp hd _ ⟨hx, hx'⟩
    have hst := loc s.start .exterior
    change (region.locatePointIndexed c s.start context).2 = .exterior ↔ s.start ∈ c.exterior at hst
    simp only [reduceCtorEq, or_self, if_false, if_true]
    by_cases he : s.start ∈ c.exterior
    · refine ⟨.disjoint, by simp only [hst, he, if_true, if_false], ?_⟩
      intro y hy
      rcases Contour.cover (off hy) with h' | h'
      · exact absurd ((same hy (start_mem s) (off hy) (off (start_mem s))).mp h') fun h => disj h he
      · exact h'
    · refine ⟨.within, by simp only [hst, he, if_true, if_false], ?_⟩
      intro y hy
      rcases Contour.cover (off (start_mem s)) with h' | h'
      · exact (same (start_mem s) hy (off (start_mem s)) (off hy)).mp h'
      · exact absurd h' he
  have hto : r = .touch := by
    cases r <;> simp only [ContourRel] at hrel'
    case disjoint => exact absurd rfl hdi
    case touch => rfl
    case cross => exact absurd rfl hcr
    case overlap => exact absurd hrel'.2 hno
    case component =>
      obtain ⟨e, he, hse⟩ := hrel'
      refine absurd (pts_nontrivial hs) (Set.not_nontrivial_iff.mpr ?_)
      have := hsub e he
      rwa [Set.inter_eq_left.mpr hse] at this
  subst hto
  have hne : (s.pts ∩ c.pts).Nonempty := hrel'.2.2
  have locs : ∀ p l, (region.locatePointIndexed c p context).2 = l ↔ Locates c p l := loc
  simp only [reduceCtorEq, or_self, if_false]
  by_cases s1 : s.start ∈ c.exterior
  · refine ⟨.touch, ?_, outs (start_mem s) s1 hne⟩
    simp only [(locs s.start .exterior).mpr s1, if_true]
  by_cases s2 : s.start ∈ c.interior
  · refine ⟨.enclosed, ?_, ins (start_mem s) s2 hne⟩
    simp only [(locs s.start .interior).mpr s2, if_true, reduceCtorEq, if_false]
  have s3 : s.start ∈ c.pts := by
    by_contra h'
    rcases Contour.cover h' with h' | h' <;> contradiction
  by_cases f1 : s.finish ∈ c.exterior
  · refine ⟨.touch, ?_, outs (finish_mem s) f1 hne⟩
    simp only [(locs s.start .boundary).mpr s3, (locs s.finish .exterior).mpr f1, if_true, reduceCtorEq, if_false]
  by_cases f2 : s.finish ∈ c.interior
  · refine ⟨.enclosed, ?_, ins (finish_mem s) f2 hne⟩
    simp only [(locs s.start .boundary).mpr s3, (locs s.finish .interior).mpr f2, if_true, reduceCtorEq, if_false]
  have f3 : s.finish ∈ c.pts := by
    by_contra h'
    rcases Contour.cover h' with h' | h' <;> contradiction
  -- both endpoints are on the contour
  obtain ⟨i, e, hi, he, hpe⟩ := locateLoop_index hc s.start c.edgeList 0 false s3
  obtain ⟨j, f, hj, hf, hpf⟩ := locateLoop_index hc s.finish c.edgeList 0 false f3
  have hi : region.locatePointIndexed c s.start context = (some (i : Int), .boundary) := by
    unfold region.locatePointIndexed
    rw [hc.contourSegments]
    simpa using hi
  have hj : region.locatePointIndexed c s.finish context = (some (j : Int), .boundary) := by
    unfold region.locatePointIndexed
    rw [hc.contourSegments]
    simpa using hj
  simp only [hi, hj, reduceCtorEq, if_false]
  obtain ⟨p, v, q, hl, hn, hside⟩ : ∃ p v q, c.LeastCorner p v q ∧ cross p v q ≠ 0 ∧
      (0 < cross p v q ∨ (s.start ∉ c.vertices ∧ s.finish ∉ c.vertices)) := by
    rcases hside with ⟨p, v, q, hl, h⟩ | h' | h' | h'
    · exact ⟨p, v, q, hl, h.ne', .inl h⟩
    · exact absurd s3 h'
    · exact absurd f3 h'
    · obtain ⟨p, v, q, hl, hn⟩ := h.leastCorner
      exact ⟨p, v, q, hl, hn, .inr h'⟩
  have notEnd : ∀ {x : Point K} {k : Nat} {e : Segment K}, c.edgeList[k]? = some e → x ∉ c.vertices →
      ¬ e.IsEndpoint x := by
    intro x k e he hx hend
    have h2 : 2 ≤ c.vertices.length := by have := h.three; omega
    have hk : k < c.vertices.length := by
      rw [← Contour.length_edgeList]; exact (List.getElem?_eq_some_iff.mp he).1
    obtain ⟨k', hk'⟩ := c.exists_prev hk
    rcases hend with rfl | rfl
    · exact hx (List.mem_of_getElem? (Contour.edge_start c h2 hk' he))
    · exact hx (List.mem_of_getElem? (Contour.edge_finish c he))
  obtain ⟨t, t0, t1, ht⟩ := exists_seen (c := c) hs hsub
  obtain ⟨u, u0, u1, hu⟩ := exists_seen (c := c) (s := s.reverse) (Ne.symm hs)
    (by intro e he; rw [Segment.pts_reverse]; exact hsub e he)
  change Seen c s.finish (lerp s.finish s.start u) at hu
  obtain ⟨b, hb, hb'⟩ := touchesAtStart_spec hc h hl hn he hpe hs t0 ht (hside.imp_right fun h => notEnd he h.1)
  obtain ⟨b', hb2, hb2'⟩ := touchesAtEnd_spec hc h hl hn hf hpf (Ne.symm hs) u0 hu
    (hside.imp_right fun h => notEnd hf h.2)
  have m1 : lerp s.start s.finish t ∈ s.pts := ⟨t, t0.le, t1, rfl⟩
  have m2 : lerp s.finish s.start u ∈ s.pts := by
    rw [← Segment.pts_reverse]; exact ⟨u, u0.le, u1, rfl⟩
  have o1 : lerp s.start s.finish t ∉ c.pts := ht _ (finish_mem _) fun h =>
    t0.ne (lerp_injective hs ((lerp_zero _ _).trans h.symm))
  have o2 : lerp s.finish s.start u ∉ c.pts := hu _ (finish_mem _) fun h =>
    u0.ne (lerp_injective (Ne.symm hs) ((lerp_zero _ _).trans h.symm))
  simp only [contour.orientation_eq context h.nodup hl, hb, hb2]
  cases b with
  | true =>
    exact ⟨.touch, by simp, outs m1 ((Contour.cover o1).resolve_left (hb' rfl)) hne⟩
  | false =>
    cases b' with
    | true => exact ⟨.touch, by simp, outs m2 ((Contour.cover o2).resolve_left (hb2'.mp rfl)) hne⟩
    | false =>
      refine ⟨.enclosed, by simp, ins m2 ?_ hne⟩
      by_contra h'
      exact absurd (hb2'.mpr h') (by simp)

/-- C43: the same as an equivalence. -/
theorem C43_segment_in_region_iff {context : Context K} (hc : context.Exact) {s : Segment K}
    (hs : s.Nondegenerate) {c : Contour K} (h : c.Simple) (hno : ¬ SharesPiece s.pts c.pts)
    (hside : Counterclockwise c ∨ s.start ∉ c.pts ∨ s.finish ∉ c.pts ∨
      (s.start ∉ c.vertices ∧ s.finish ∉ c.vertices)) (r : Relation) :
    planar.segmentInRegion s c context = .ok r ↔ SegmentRegionRel s c r := by
  obtain ⟨r', e, hr'⟩ := C43_segment_in_region hc hs h hno hside
  rw [e]
  constructor
  · intro h; cases h; exact hr'
  · intro h
    rw [LinearCompoundRel.unique ⟨_, s.start_mem⟩ c.interior_pts c.interior_exterior c.exterior_pts hr' h]

/-- C26: `segment_in_polygon` for segments which do not run along the border; the exceptions are those of
`C26_segment_in_polygon`. -/
theorem C26_segment_beside_border {context : Context K} (hc : context.Exact) {s : Segment K} {g : Polygon K}
    (hs : s.Nondegenerate) (hg : g.Valid) (hno : ¬ SharesPiece s.pts g.border.pts)
    (hside : Counterclockwise g.border ∨ s.start ∉ g.border.pts ∨ s.finish ∉ g.border.pts ∨
      (s.start ∉ g.border.vertices ∧ s.finish ∉ g.border.vertices))
    (hneat : Neat (g.holes.flatMap Contour.edgeList)) (hoff : g.border.pts ∩ Multiregion.pts g.holes = ∅) :
    ∃ r, planar.segmentInPolygon s g context = .ok r ∧
      LinearCompoundRel s.pts g.interior g.pts g.exterior r := by
  obtain ⟨r, hr, h⟩ := C43_segment_in_region hc hs hg.border hno hside
  obtain ⟨q, hq, h⟩ := C26_segment_in_polygon hc hs hg hr h
  refine ⟨q, hq, ?_⟩
  rcases h with h | ⟨-, h | h, -⟩ | ⟨-, h, -⟩
  · exact h
  · exact absurd hoff h
  · exact absurd hneat h
  · exact absurd hoff h

/-! ### cases -/

/-- A counterclockwise contour with a reflex vertex. -/
def exampleNotch : Contour ℚ := ⟨[⟨0, 0⟩, ⟨4, 0⟩, ⟨4, 4⟩, ⟨2, 1⟩, ⟨0, 4⟩]⟩

theorem exampleNotch_simple : exampleNotch.Simple := Contour.simple_of_check (by decide +kernel)

theorem exampleNotch_ccw : Counterclockwise exampleNotch :=
  ⟨⟨0, 4⟩, ⟨0, 0⟩, ⟨4, 0⟩, ⟨4, [⟨4, 4⟩, ⟨2, 1⟩], by decide +kernel, by decide +kernel⟩, by decide +kernel⟩

theorem not_sharesPiece_of_check {s : Segment ℚ} {c : Contour ℚ}
    (h : reference.sharesNothing [s] c.edgeList = true) : ¬ SharesPiece s.pts c.pts := by
  have := reference.sharesNothing_spec h
  have e : segsPts [s] = s.pts := by ext; simp [segsPts]
  rwa [e] at this

/-- Chords of the contour inside, outside and across, from vertices and inner points of edges. -/
example : SegmentRegionRel ⟨⟨0, 4⟩, ⟨4, 4⟩⟩ exampleNotch .touch ∧
    SegmentRegionRel ⟨⟨2, 1⟩, ⟨2, 0⟩⟩ exampleNotch .enclosed ∧
    SegmentRegionRel ⟨⟨2, 0⟩, ⟨2, 1⟩⟩ exampleNotch .enclosed ∧
    SegmentRegionRel ⟨⟨1, 5/2⟩, ⟨3, 5/2⟩⟩ exampleNotch .touch ∧
    SegmentRegionRel ⟨⟨0, 0⟩, ⟨4, 4⟩⟩ exampleNotch .cross ∧
    SegmentRegionRel ⟨⟨1, 1⟩, ⟨3, 1/2⟩⟩ exampleNotch .within ∧
    SegmentRegionRel ⟨⟨2, 2⟩, ⟨2, 5⟩⟩ exampleNotch .disjoint ∧
    SegmentRegionRel ⟨⟨1, 1⟩, ⟨3, 1⟩⟩ exampleNotch .enclosed := by
  refine ⟨?_, ?_, ?_, ?_, ?_, ?_, ?_, ?_⟩ <;>
    exact (C43_segment_in_region_iff reference.context_exact
      (by unfold Segment.Nondegenerate; decide +kernel) exampleNotch_simple
      (not_sharesPiece_of_check (by decide +kernel)) (.inl exampleNotch_ccw) _).mp (by decide +kernel)

end Orient.Props
