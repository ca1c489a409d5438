import Verif.Lemmas.Separated
import Verif.Props.MultisegmentsCross
import Verif.Props.SegmentInMultisegment
import Verif.Props.SegmentInContour
import Verif.Props.SegmentInSegment
import Verif.Props.Detour

/-! C89: segments and contours given as multisegments, related to linear geometries. -/

set_option linter.unusedSectionVars false

namespace Orient.Props

variable {K : Type} [Field K] [LinearOrder K] [IsStrictOrderedRing K]

theorem isBoxOf_unique {a b : Box K} {S : Set (Point K)} (ha : IsBoxOf a S) (hb : IsBoxOf b S) : a = b := by
  obtain ⟨p1, m1, e1⟩ := ha.minX_mem
  obtain ⟨p2, m2, e2⟩ := ha.maxX_mem
  obtain ⟨p3, m3, e3⟩ := ha.minY_mem
  obtain ⟨p4, m4, e4⟩ := ha.maxY_mem
  obtain ⟨q1, n1, f1⟩ := hb.minX_mem
  obtain ⟨q2, n2, f2⟩ := hb.maxX_mem
  obtain ⟨q3, n3, f3⟩ := hb.minY_mem
  obtain ⟨q4, n4, f4⟩ := hb.maxY_mem
  have g1 : a.minX = b.minX := le_antisymm (f1 ▸ ha.minX_le _ n1) (e1 ▸ hb.minX_le _ m1)
  have g2 : a.maxX = b.maxX := le_antisymm (e2 ▸ hb.le_maxX _ m2) (f2 ▸ ha.le_maxX _ n2)
  have g3 : a.minY = b.minY := le_antisymm (f3 ▸ ha.minY_le _ n3) (e3 ▸ hb.minY_le _ m3)
  have g4 : a.maxY = b.maxY := le_antisymm (e4 ▸ hb.le_maxY _ m4) (f4 ▸ ha.le_maxY _ n4)
  cases a
  cases b
  exact Box.mk.injEq .. ▸ ⟨g1, g2, g3, g4⟩

/-- What is missing in `SetsRel`. -/
theorem linearRel_of_sets {s : Segment K} {M : Set (Point K)} {r : Relation} (h : SetsRel s.pts M r)
    (hx : r = .cross → ∃ p, CrossesAt s.pts M p) (ht : r = .touch → ¬ ∃ p, CrossesAt s.pts M p) :
    LinearRel s M r := by
  cases r <;> first
    | exact h
    | exact ⟨h.2, crossedBy_iff_crossesAt.mpr (hx rfl)⟩
    | exact ⟨h.2, fun k => ht rfl (crossedBy_iff_crossesAt.mp k), h.1⟩

theorem contoursRel_of_sets {a b : Contour K} (ha : a.Simple) (hb : b.Simple) {r : Relation}
    (h : SetsRel a.pts b.pts r) (hx : r = .cross → ∃ p, CrossesAt a.pts b.pts p)
    (ht : r = .touch → ¬ ∃ p, CrossesAt a.pts b.pts p) : ContoursRel a b r := by
  cases r with
  | equal => exact h
  | component => exact absurd (hb.pts_eq_of_subset ha h.1) h.ne
  | composite => exact absurd (ha.pts_eq_of_subset hb h.1) h.ne
  | overlap => exact ⟨fun k => h.1 k.le, h.2.2⟩
  | cross => exact ⟨h.2, (ha.crosses_iff hb h.2).mp (hx rfl)⟩
  | touch => exact ⟨h.2, h.1, fun k => ht rfl ((ha.crosses_iff hb h.2).mpr k)⟩
  | disjoint => exact h
  | _ => exact h.elim

/-- A segment leaves its points in two directions. -/
theorem segment_atMostTwoWays (t : Segment K) (p : Point K) : AtMostTwoWays t.pts p := by
  refine atMostTwoWays_of (u := t.start) (v := t.finish) fun x hx sx => ?_
  obtain ⟨r, r0, r1, rfl⟩ := sx (Segment.start_mem _)
  obtain ⟨q, q0, q1, rfl⟩ := sx (Segment.finish_mem _)
  rcases lt_trichotomy r q with h | h | h
  · have : 0 < 1 - r := by linarith
    refine .inr ⟨(q - r) / (1 - r), div_pos (by linarith) this, ?_⟩
    simp only [lerp, Point.mk.injEq]
    constructor <;> field_simp <;> ring
  · exact absurd (by rw [h]) hx
  · have : 0 < r := by linarith
    refine .inl ⟨(r - q) / r, div_pos (by linarith) this, ?_⟩
    simp only [lerp, Point.mk.injEq]
    constructor <;> field_simp <;> ring

/-- The relation of segments is the relation of linear sets. -/
theorem segmentsRel_linear {s t : Segment K} (hs : s.Nondegenerate) (ht : t.Nondegenerate) {r : Relation}
    (h : SegmentsRel s t r) : LinearRel s t.pts r := by
  have single : ∀ {p}, s.pts ∩ t.pts = {p} → ¬ SharesPiece s.pts t.pts := by
    rintro p e ⟨u, u0, u1, u2⟩
    have h1 : u.start ∈ s.pts ∩ t.pts := ⟨u1 u.start_mem, u2 u.start_mem⟩
    have h2 : u.finish ∈ s.pts ∩ t.pts := ⟨u1 u.finish_mem, u2 u.finish_mem⟩
    rw [e] at h1 h2
    exact u0 (h1.trans h2.symm)
  cases r with
  | overlap => exact ⟨h.1, h.2.1, sharesPiece_of_nontrivial h.2.2⟩
  | cross =>
    obtain ⟨p, e, h1, h2⟩ := h
    refine ⟨single e, ?_⟩
    have hp : p ∈ s.pts ∩ t.pts := by rw [e]; rfl
    have hcol : ∀ w ∈ t.pts, w ≠ p → cross s.start s.finish w ≠ 0 := by
      intro w hw hne h0
      have hc' : s.Collinear ⟨p, w⟩ := ⟨Segment.cross_eq_zero hp.1, h0⟩
      obtain ⟨x, hx, y, hy, hxy⟩ := hc'.nontrivial_of_inner (t := ⟨p, w⟩) hs hne.symm ⟨hp.1, h1⟩ (Segment.start_mem _)
      have sub : ∀ z ∈ s.pts ∩ (⟨p, w⟩ : Segment K).pts, z = p := fun z hz => by
        have : z ∈ s.pts ∩ t.pts := ⟨hz.1, Segment.pts_subset hp.2 hw hz.2⟩
        rwa [e] at this
      exact hxy ((sub x hx).trans (sub y hy).symm)
    have a1 := hcol _ t.start_mem fun k => h2 (.inl k.symm)
    have a2 := hcol _ t.finish_mem fun k => h2 (.inr k.symm)
    obtain ⟨k, k0, k1, rfl⟩ := Segment.inner_param hp.2 h2
    have z := Segment.cross_eq_zero hp.1
    rw [cross_lerp] at z
    rcases lt_or_gt_of_ne a1 with b1 | b1
    · refine ⟨_, t.finish, t.start, hp.1, h1, Segment.pts_subset hp.2 t.finish_mem,
        Segment.pts_subset hp.2 t.start_mem, ?_, b1⟩
      by_contra hn
      nlinarith
    · refine ⟨_, t.start, t.finish, hp.1, h1, Segment.pts_subset hp.2 t.start_mem,
        Segment.pts_subset hp.2 t.finish_mem, b1, ?_⟩
      by_contra hn
      nlinarith
  | touch =>
    obtain ⟨p, e, h1⟩ := h
    have hp : p ∈ s.pts ∩ t.pts := by rw [e]; rfl
    refine ⟨single e, fun k => ?_, ⟨p, hp⟩⟩
    obtain ⟨q, hq⟩ := crossedBy_iff_crossesAt.mp k
    have i1 := hq.inner
    have i2 := hq.symm.inner
    have : q ∈ s.pts ∩ t.pts := ⟨i1.1, i2.1⟩
    rw [e] at this
    obtain rfl : q = p := this
    exact h1.elim i1.2 i2.2
  | _ => exact h

section

variable {context : Context K} (hc : context.Exact)
include hc

/-- C89: as the second operand a contour is the same as the multisegment of its edges, whatever the first multisegment
is. -/
theorem C89_edges {a : Multisegment K} {b : Contour K} (hb : b.vertices ≠ []) :
    planar.multisegmentInContour a b context = planar.multisegmentInMultisegment a ⟨b.edgeList⟩ context := by
  have hne := Contour.edgeList_ne_nil hb
  have e1 : context.contourBox b = context.segmentsBox b.edgeList :=
    isBoxOf_unique (hc.contourBox b hb) (hc.segmentsBox _ hne)
  have e2 : contour.toEdgesEndpoints b = multisegment.toSegmentsEndpoints ⟨b.edgeList⟩ := by
    unfold multisegment.toSegmentsEndpoints contour.toEdgesEndpoints
    simp only [← reference.edges_eq_edgeList, List.map_map]
    exact (List.map_id _).symm
  unfold planar.multisegmentInContour planar.multisegmentInMultisegment contour.relateMultisegment
    multisegment.relateMultisegment
  simp only [e1, e2]

/-- C89: about two contours `multisegment_in_contour` always answers rightly, if the first one is given by its edges;
this is so for `contour_in_contour` only if the contours do not cross just at vertices. -/
theorem C89_contours {a b : Contour K} (ha : a.Simple) (hb : b.Simple) (r : Relation) :
    planar.multisegmentInContour ⟨a.edgeList⟩ b context = .ok r ↔ ContoursRel a b r := by
  have na := Contour.edgeList_ne_nil ha.ne_nil
  obtain ⟨r', hr, h⟩ := C18_multisegment_in_contour hc (a := ⟨a.edgeList⟩) na hb.ne_nil ha.valid hb.valid
  obtain ⟨x, t⟩ := C51_multisegment_in_contour hc (a := ⟨a.edgeList⟩) na ha.valid hb
  have h' : ContoursRel a b r' := contoursRel_of_sets ha hb h (fun k => (x.mp (k ▸ hr)).2) fun k => (t.mp (k ▸ hr)).2.2
  rw [hr]
  constructor
  · intro k; cases k; exact h'
  · intro k; rw [h'.unique ha k]

/-- C89: so the wrong answers of `contour_in_contour` are those which `multisegment_in_contour` does not give. -/
theorem C89_recognise {a b : Contour K} (ha : a.Simple) (hb : b.Simple) {r : Relation}
    (h : planar.contourInContour a b context = .ok r) :
    ContoursRel a b r ↔ planar.multisegmentInContour ⟨a.edgeList⟩ b context = planar.contourInContour a b context := by
  rw [h]
  exact (C89_contours hc ha hb r).symm

/-- C89: about a single segment `multisegment_in_contour` always answers rightly. -/
theorem C89_segment_in_contour {s : Segment K} (hs : s.Nondegenerate) {c : Contour K} (h : c.Simple) (r : Relation) :
    planar.multisegmentInContour ⟨[s]⟩ c context = .ok r ↔ LinearRel s c.pts r := by
  obtain ⟨r', hr, k⟩ := C18_multisegment_in_contour hc (a := ⟨[s]⟩) (by simp) h.ne_nil (single_valid hs) h.valid
  obtain ⟨x, t⟩ := C51_multisegment_in_contour hc (a := ⟨[s]⟩) (by simp) (single_valid hs) h
  rw [segsPts_singleton] at k x t
  have h' : LinearRel s c.pts r' := linearRel_of_sets k (fun k => (x.mp (k ▸ hr)).2) fun k => (t.mp (k ▸ hr)).2.2
  rw [hr]
  constructor
  · intro k; cases k; exact h'
  · intro k
    rw [h'.unique hs h.valid.1 (Contour.edgeList_ne_nil h.ne_nil) k]

/-- C89: `segment_in_contour` answers the same, except that it does not find a segment along several edges of the
contour to be a part of it. -/
theorem C89_segment_same {s : Segment K} (hs : s.Nondegenerate) {c : Contour K} (h : c.Simple) :
    planar.segmentInContour s c context = planar.multisegmentInContour ⟨[s]⟩ c context ∨
      (planar.segmentInContour s c context = .ok .overlap ∧
        planar.multisegmentInContour ⟨[s]⟩ c context = .ok .component ∧
        ¬ ∃ e ∈ c.edgeList, s.pts ⊆ e.pts) := by
  obtain ⟨r, hr, -⟩ := C18_multisegment_in_contour hc (a := ⟨[s]⟩) (by simp) h.ne_nil (single_valid hs) h.valid
  have k := (C89_segment_in_contour hc hs h r).mp hr
  rw [hr]
  simp only [C08_segment_in_contour hc hs h]
  have hn := h.not_subset_segment hs
  cases r with
  | equal => exact absurd (Set.Subset.antisymm_iff.mp k).2 hn
  | composite => exact absurd k.1 hn
  | component =>
    by_cases he : ∃ e ∈ c.edgeList, s.pts ⊆ e.pts
    · exact .inl he
    · exact .inr ⟨⟨he, s, hs, le_rfl, k.1⟩, rfl, he⟩
  | overlap => exact .inl ⟨fun ⟨e, he, m⟩ => k.1 fun z hz => ⟨e, he, m hz⟩, k.2.2⟩
  | cross => exact .inl k
  | touch => exact .inl k
  | disjoint => exact .inl k
  | _ => exact k.elim

/-- C89: so both of them answer the same if no three consecutive vertices are collinear. -/
theorem C89_segment_corners {s : Segment K} (hs : s.Nondegenerate) {c : Contour K} (h : c.Simple)
    (hcor : c.StrictCorners) :
    planar.segmentInContour s c context = planar.multisegmentInContour ⟨[s]⟩ c context := by
  rcases C89_segment_same hc hs h with k | ⟨k1, k2, -⟩
  · exact k
  · have := (C08_component hc hs h hcor).mpr ((C89_segment_in_contour hc hs h _).mp k2).1
    rw [k1] at this
    cases this

/-- C89: `segment_in_multisegment` with the edges of a contour always agrees with `multisegment_in_contour`. -/
theorem C89_segment_in_edges {s : Segment K} (hs : s.Nondegenerate) {c : Contour K} (h : c.Simple) :
    planar.multisegmentInContour ⟨[s]⟩ c context = .ok (planar.segmentInMultisegment s ⟨c.edgeList⟩ context) := by
  have h2 : 2 ≤ c.edgeList.length := by rw [Contour.length_edgeList]; have := h.three; omega
  rw [C89_segment_in_contour hc hs h]
  exact (C05_segment_in_multisegment hc hs h.valid h2 _).mp rfl

/-- C89: about two segments the functions for segments and for multisegments agree. -/
theorem C89_segments {s t : Segment K} (hs : s.Nondegenerate) (ht : t.Nondegenerate) :
    planar.multisegmentInMultisegment ⟨[s]⟩ ⟨[t]⟩ context = .ok (planar.segmentInSegment s t context) ∧
      planar.segmentInMultisegment s ⟨[t]⟩ context =
        if planar.segmentInSegment s t context = .equal then .component else planar.segmentInSegment s t context := by
  have hrel : SegmentsRel s t (planar.segmentInSegment s t context) := hc.relation s t hs ht
  have k : LinearRel s t.pts (planar.segmentInSegment s t context) := segmentsRel_linear hs ht hrel
  constructor
  · obtain ⟨r, hr, h⟩ := C18_multisegment_in_multisegment hc (a := ⟨[s]⟩) (b := ⟨[t]⟩) (by simp) (by simp)
      (single_valid hs) (single_valid ht)
    obtain ⟨x, y⟩ := C51_multisegment_in_multisegment hc (a := ⟨[s]⟩) (b := ⟨[t]⟩) (by simp) (by simp)
      (single_valid hs) (single_valid ht) fun p _ => .inl (by rw [segsPts_singleton]; exact segment_atMostTwoWays t p)
    simp only [segsPts_singleton] at h x y
    have h' : LinearRel s t.pts r := linearRel_of_sets h (fun k => (x.mp (k ▸ hr)).2) fun k => (y.mp (k ▸ hr)).2.2
    rw [hr]
    rw [← segsPts_singleton t] at h' k
    rw [h'.unique hs (single_valid ht).1 (by simp) k]
  · rw [C05_single hc hs ht]
    split_ifs with e
    · rw [e] at k
      exact .inr ⟨rfl, k⟩
    · exact .inl ⟨k, e⟩

/-- C89: `multisegment_in_multisegment` answers about a single segment the same as `segment_in_multisegment`, except that
it may miss that the segment is crossed. -/
theorem C89_segment_in_multisegment {s : Segment K} (hs : s.Nondegenerate) {l : List (Segment K)}
    (hv : SegmentsValid l) (h2 : 2 ≤ l.length) :
    planar.multisegmentInMultisegment ⟨[s]⟩ ⟨l⟩ context = .ok (planar.segmentInMultisegment s ⟨l⟩ context) ∨
      (planar.multisegmentInMultisegment ⟨[s]⟩ ⟨l⟩ context = .ok .touch ∧
        planar.segmentInMultisegment s ⟨l⟩ context = .cross) := by
  have hne : l ≠ [] := by rintro rfl; simp at h2
  have k := (C05_segment_in_multisegment hc hs hv h2 _).mp rfl
  obtain ⟨r, hr, h⟩ := C18_multisegment_in_multisegment hc (a := ⟨[s]⟩) (b := ⟨l⟩) (by simp) hne (single_valid hs) hv
  simp only [segsPts_singleton] at h
  by_cases ht : r = .touch ∧ ∃ p, CrossesAt s.pts (segsPts l) p
  · refine .inr ⟨by rw [hr, ht.1], (C05_segment_in_multisegment hc hs hv h2 _).mpr ?_⟩
    rw [ht.1] at h
    exact ⟨h.2, crossedBy_iff_crossesAt.mpr ht.2⟩
  · refine .inl ?_
    have h' : LinearRel s (segsPts l) r := linearRel_of_sets h (fun e => ?_) fun e p => ht ⟨e, p⟩
    · rw [hr, h'.unique hs hv.1 hne k]
    · have := (C51_multisegment_in_multisegment_sound hc (a := ⟨[s]⟩) (b := ⟨l⟩) (by simp) hne (single_valid hs) hv
        (e ▸ hr)).2
      rwa [segsPts_singleton] at this

/-- C89: it does not miss it if at most two segments of the multisegment meet there. -/
theorem C89_segment_two {s : Segment K} (hs : s.Nondegenerate) {l : List (Segment K)}
    (hv : SegmentsValid l) (h2 : 2 ≤ l.length) (two : ∀ p, CrossesAt s.pts (segsPts l) p →
      AtMostTwoWays (segsPts l) p ∨ ∃ v ∈ l, s.Inner p ∧ v.Inner p) :
    planar.multisegmentInMultisegment ⟨[s]⟩ ⟨l⟩ context = .ok (planar.segmentInMultisegment s ⟨l⟩ context) := by
  have hne : l ≠ [] := by rintro rfl; simp at h2
  rcases C89_segment_in_multisegment hc hs hv h2 with k | ⟨k1, k2⟩
  · exact k
  · have hx := ((C05_segment_in_multisegment hc hs hv h2 _).mp k2).2
    have := ((C51_multisegment_in_multisegment hc (a := ⟨[s]⟩) (b := ⟨l⟩) (by simp) hne (single_valid hs) hv fun p hp => by
      rw [segsPts_singleton] at hp
      refine (two p hp).imp id fun ⟨v, hv, k⟩ => ⟨s, by simp, v, hv, k⟩).2.mp k1).2.2
    rw [segsPts_singleton] at this
    exact absurd (crossedBy_iff_crossesAt.mp hx) this

end

/-- The contours about which `contour_in_contour` is wrong (C36). -/
theorem C89_example_contours :
    exampleSquare.Simple ∧ exampleDiamond.Simple ∧ ContoursRel exampleSquare exampleDiamond .cross ∧
      planar.contourInContour exampleSquare exampleDiamond (reference.context : Context ℚ) = .ok .touch ∧
      planar.multisegmentInContour ⟨exampleSquare.edgeList⟩ exampleDiamond (reference.context : Context ℚ)
        = .ok .cross :=
  ⟨C36_counterexample.1, C36_counterexample.2.1, C36_counterexample.2.2.2, C36_counterexample.2.2.1,
    (C89_contours reference.context_exact C36_counterexample.1 C36_counterexample.2.1 _).mpr C36_counterexample.2.2.2⟩

/-- A triangle with a vertex inside of a side: the exception of `C89_segment_same` is real, and segments in other
relations to the triangle. -/
theorem C89_example_segments :
    let c : Contour ℚ := ⟨[⟨0, 0⟩, ⟨2, 0⟩, ⟨4, 0⟩, ⟨0, 4⟩]⟩
    c.Simple ∧ planar.segmentInContour ⟨⟨0, 0⟩, ⟨4, 0⟩⟩ c (reference.context : Context ℚ) = .ok .overlap ∧
      planar.multisegmentInContour ⟨[⟨⟨0, 0⟩, ⟨4, 0⟩⟩]⟩ c (reference.context : Context ℚ) = .ok .component ∧
      planar.segmentInMultisegment ⟨⟨0, 0⟩, ⟨4, 0⟩⟩ ⟨c.edgeList⟩ (reference.context : Context ℚ) = .component ∧
      planar.segmentInContour ⟨⟨2, -1⟩, ⟨2, 1⟩⟩ c (reference.context : Context ℚ) = .ok .cross ∧
      planar.multisegmentInContour ⟨[⟨⟨2, -1⟩, ⟨2, 1⟩⟩]⟩ c (reference.context : Context ℚ) = .ok .cross ∧
      planar.multisegmentInContour ⟨[⟨⟨-1, 1⟩, ⟨1, -1⟩⟩]⟩ c (reference.context : Context ℚ) = .ok .touch := by
  intro c
  exact ⟨Contour.simple_of_check (by decide +kernel), by decide +kernel⟩

/-- C89: three segments at a point of a segment; `segment_in_multisegment` is right, `multisegment_in_multisegment` is
not. -/
theorem C89_counterexample :
    let s : Segment ℚ := ⟨⟨-1, 0⟩, ⟨1, 0⟩⟩
    let l : List (Segment ℚ) := [⟨⟨0, 0⟩, ⟨5, 1⟩⟩, ⟨⟨0, 0⟩, ⟨-5, 1⟩⟩, ⟨⟨0, 0⟩, ⟨0, -1⟩⟩]
    s.Nondegenerate ∧ SegmentsValid l ∧ LinearRel s (segsPts l) .cross ∧
      planar.segmentInMultisegment s ⟨l⟩ (reference.context : Context ℚ) = .cross ∧
      planar.multisegmentInMultisegment ⟨[s]⟩ ⟨l⟩ (reference.context : Context ℚ) = .ok .touch := by
  intro s l
  have hs : s.Nondegenerate := show (⟨-1, 0⟩ : Point ℚ) ≠ ⟨1, 0⟩ by decide +kernel
  have hl : SegmentsValid l := segmentsValid_of_check (by decide +kernel)
  have e : planar.segmentInMultisegment s ⟨l⟩ (reference.context : Context ℚ) = .cross := by decide +kernel
  exact ⟨hs, hl, (C05_segment_in_multisegment reference.context_exact hs hl (by simp [l]) _).mp e, e, by decide +kernel⟩

end Orient.Props
