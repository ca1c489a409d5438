import Verif.Props.SegmentInContour
import Verif.Props.SegmentInMultisegment
import Verif.Props.MultisegmentsComplete
import Verif.Props.ContourRelations

/-! C29: relations with itself and with own parts. C23: exchanged operands. -/

set_option linter.unusedSectionVars false

namespace Orient.Props

variable {K : Type} [Field K] [LinearOrder K] [IsStrictOrderedRing K]

/-- C29: a segment equals itself. -/
theorem C29_segment {context : Context K} (hc : context.Exact) {s : Segment K} (hs : s.Nondegenerate) :
    planar.segmentInSegment s s context = .equal :=
  (C02_segment_in_segment hc hs hs).1.mpr rfl

/-- C29: a segment of a valid multisegment is a component of it. -/
theorem C29_segment_of_multisegment {context : Context K} (hc : context.Exact) {l : List (Segment K)}
    (hv : SegmentsValid l) {s : Segment K} (h : s ∈ l) :
    planar.segmentInMultisegment s ⟨l⟩ context = .component := by
  have hs := hv.1 s h
  have hsub : s.pts ⊆ segsPts l := subset_segsPts h
  by_cases h2 : 2 ≤ l.length
  · refine (C05_segment_in_multisegment hc hs hv h2 _).mpr ⟨hsub, fun hsup => ?_⟩
    obtain ⟨i, hi, rfl⟩ := List.mem_iff_getElem.mp h
    obtain ⟨j, hj, hij⟩ : ∃ j, j < l.length ∧ i ≠ j := by
      by_cases h0 : i = 0
      · exact ⟨1, by omega, by omega⟩
      · exact ⟨0, by omega, h0⟩
    have hp := List.pairwise_iff_getElem.mp hv.2
    have hjs : l[j].pts ⊆ l[i].pts := (subset_segsPts (List.getElem_mem hj)).trans hsup
    have nd := hv.1 _ (List.getElem_mem hj)
    rcases lt_or_gt_of_ne hij with h | h
    · exact nd (hp i j hi hj h ⟨hjs (Segment.start_mem _), Segment.start_mem _⟩
        ⟨hjs (Segment.finish_mem _), Segment.finish_mem _⟩)
    · exact nd (hp j i hj hi h ⟨Segment.start_mem _, hjs (Segment.start_mem _)⟩
        ⟨Segment.finish_mem _, hjs (Segment.finish_mem _)⟩)
  · obtain ⟨t, rfl⟩ : ∃ t, l = [t] := by
      match l, h, h2 with
      | [t], _, _ => exact ⟨t, rfl⟩
      | _ :: _ :: _, _, h2 => simp at h2
    simp only [List.mem_singleton] at h
    subst h
    exact (C05_single hc hs hs _).mpr (.inr ⟨rfl, rfl⟩)

/-- C29: simple contours and regions with the same vertices, listed from anywhere in any direction. -/
theorem C29_contour {context : Context K} (hc : context.Exact) {c : Contour K} (h : c.Simple) :
    planar.contourInContour c c context = .ok .equal ∧
    planar.regionInRegion c c context = .ok .equal ∧
    planar.contourInRegion c c context = .ok .component :=
  C24_same_cycle hc h ⟨0, .inl (by simp)⟩

/-- C29: a part of an edge is a component of the contour. -/
theorem C29_edge_of_contour {context : Context K} (hc : context.Exact) {c : Contour K} (h : c.Simple)
    {s e : Segment K} (hs : s.Nondegenerate) (he : e ∈ c.edgeList) (hse : s.pts ⊆ e.pts) :
    planar.segmentInContour s c context = .ok .component :=
  (C08_segment_in_contour hc hs h _).mpr ⟨e, he, hse⟩

theorem endpoint_of_subset {s e : Segment K} (hse : s.pts ⊆ e.pts) {p : Point K} (hp : p ∈ s.pts)
    (he : e.IsEndpoint p) : s.IsEndpoint p := by
  rw [Segment.isEndpoint_iff] at he ⊢
  rcases he with rfl | rfl
  · exact .inl (le_antisymm (Segment.lo_le (hse s.lo_mem)) (Segment.lo_le hp))
  · exact .inr (le_antisymm (Segment.le_hi hp) (Segment.le_hi (hse s.hi_mem)))

theorem region_loop_component {context : Context K} (hc : context.Exact) {s e : Segment K}
    (hs : s.Nondegenerate) (hse : s.pts ⊆ e.pts) : ∀ (l : List (Segment K)) (i : Int)
    (st : region.LoopState K), e ∈ l → (∀ f ∈ l, f.Nondegenerate) →
    (∀ f ∈ l, f = e ∨ ((f.pts ∩ e.pts).Subsingleton ∧
      ∀ p ∈ f.pts ∩ e.pts, f.IsEndpoint p ∧ e.IsEndpoint p)) →
    region.loop context s i l st = .inl .component := by
  intro l
  induction l with
  | nil => intro i st h; simp at h
  | cons f l ih =>
    intro i st he hn hm
    have hf := hn f (by simp)
    have rel := C02_segment_in_segment hc hs hf
    have key : ∀ st', region.loopStep context s i f st = .inr st' ∧ f ≠ e →
        region.loop context s i (f :: l) st = .inl .component := by
      rintro st' ⟨h, hfe⟩
      rw [region.loop, h]
      refine ih _ _ ?_ (fun g hg => hn g (List.mem_cons_of_mem _ hg))
        (fun g hg => hm g (List.mem_cons_of_mem _ hg))
      rcases List.mem_cons.mp he with h | h
      · exact absurd h.symm hfe
      · exact h
    by_cases hfe : f = e
    · subst hfe
      have : Orient.segment.relateSegment f s context = .component ∨
          Orient.segment.relateSegment f s context = .equal := by
        by_cases h : f.pts ⊆ s.pts
        · exact .inr (rel.1.mpr (Set.Subset.antisymm hse h))
        · exact .inl (rel.2.1.mpr ⟨hse, h⟩)
      rw [region.loop, region.loopStep]
      simp only [this, if_true]
    · obtain ⟨hone, hmeet⟩ := (hm f (by simp)).resolve_left hfe
      have ends : ∀ p ∈ s.pts ∩ f.pts, s.IsEndpoint p ∧ f.IsEndpoint p := fun p hp =>
        ⟨endpoint_of_subset hse hp.1 (hmeet p ⟨hp.2, hse hp.1⟩).2, (hmeet p ⟨hp.2, hse hp.1⟩).1⟩
      by_cases hd : s.pts ∩ f.pts = ∅
      · have : Orient.segment.relateSegment f s context = .disjoint := rel.2.2.2.2.2.2.mpr hd
        exact key st ⟨by rw [region.loopStep]; simp [this], hfe⟩
      · obtain ⟨p, hp⟩ := Set.nonempty_iff_ne_empty.mpr hd
        have hsub : (s.pts ∩ f.pts).Subsingleton :=
          hone.anti fun x hx => ⟨hx.2, hse hx.1⟩
        have : Orient.segment.relateSegment f s context = .touch :=
          rel.2.2.2.2.2.1.mpr ⟨p, hsub.eq_singleton_of_mem hp, .inl (ends p hp).1⟩
        have nc : ∀ w, Orient.contour.crossesAtVertex context s w f.start f.finish = false := by
          intro w
          have : Orient.multisegment.inPair s.start (f.start, f.finish) = true ∨
              Orient.multisegment.inPair s.finish (f.start, f.finish) = true := by
            obtain ⟨h1, h2⟩ := ends p hp
            unfold Orient.multisegment.inPair
            simp only [Bool.or_eq_true, decide_eq_true_eq]
            rcases h1 with rfl | rfl
            · exact .inl h2
            · exact .inr h2
          unfold Orient.contour.crossesAtVertex
          rcases this with h | h <;> simp [h]
        by_cases h1 : st.hasNoTouch = true
        · exact key { st with hasNoTouch := false, last := some (i, f.start) }
            ⟨by rw [region.loopStep]; simp [this, h1], hfe⟩
        · refine key { st with last := some (i, f.start) } ⟨?_, hfe⟩
          rw [region.loopStep]
          simp only [this, h1]
          cases hl : st.last with
          | none => simp
          | some q => obtain ⟨q1, q2⟩ := q; simp [nc]

/-- C29: a part of an edge is a component of the region. -/
theorem C29_edge_of_region {context : Context K} (hc : context.Exact) {c : Region K} (h : c.Simple)
    {s e : Segment K} (hs : s.Nondegenerate) (he : e ∈ c.edgeList) (hse : s.pts ⊆ e.pts) :
    planar.segmentInRegion s c context = .ok .component := by
  have hl : ∀ st, region.loop context s 0 (context.contourSegments c) st = .inl .component := by
    intro st
    rw [hc.contourSegments]
    refine region_loop_component hc hs hse _ _ _ he (fun f hf => h.nondegenerate hf) fun f hf => ?_
    obtain ⟨i, hi, rfl⟩ := List.mem_iff_getElem.mp he
    obtain ⟨j, hj, rfl⟩ := List.mem_iff_getElem.mp hf
    by_cases hij : j = i
    · subst hij; exact .inl rfl
    · right
      have k1 := List.pairwise_iff_getElem.mp h.meet
      have k2 := List.pairwise_iff_getElem.mp h.valid.2
      rcases lt_or_gt_of_ne hij with hlt | hlt
      · exact ⟨k2 _ _ hj hi hlt, k1 _ _ hj hi hlt⟩
      · exact ⟨Set.inter_comm _ _ ▸ k2 _ _ hi hj hlt, fun p hp => (k1 _ _ hi hj hlt p ⟨hp.2, hp.1⟩).symm⟩
  unfold planar.segmentInRegion region.relateSegment region.relateSegmentToContour
  rw [hl]
  rfl

/-- A region and a part of its edge. -/
theorem C29_example : planar.segmentInRegion ⟨⟨3, 1⟩, ⟨2, 2⟩⟩ exampleRegion reference.context
    = .ok .component :=
  C29_edge_of_region reference.context_exact exampleRegion_simple
    (by unfold Segment.Nondegenerate; decide +kernel) (e := ⟨⟨4, 0⟩, ⟨0, 4⟩⟩) (by decide +kernel)
    (Segment.pts_subset (by rw [Segment.mem_pts_iff]; constructor <;> decide +kernel)
      (by rw [Segment.mem_pts_iff]; constructor <;> decide +kernel))

/-- Exchanging the sides of a relation of areas. -/
theorem _root_.Orient.CompoundRel.swap {I B E I' B' E' : Set (Point K)} {r : Relation}
    (h : CompoundRel I B E I' B' E' r) : CompoundRel I' B' E' I B E r.complement := by
  cases r with
  | disjoint => exact (Set.inter_comm _ _).trans h
  | touch =>
    refine ⟨Set.inter_comm B B' ▸ h.1, ?_⟩
    rw [Set.inter_comm, Set.inter_comm B']
    exact h.2
  | overlap => exact ⟨Set.inter_comm I I' ▸ h.1, Set.inter_comm E I' ▸ h.2.2, Set.inter_comm I E' ▸ h.2.1⟩
  | equal => exact ⟨h.1.symm, h.2.symm⟩
  | within => exact h
  | cover => exact h
  | component => exact ⟨h.1, h.2.1, Set.inter_comm E I' ▸ h.2.2⟩
  | composite => exact ⟨h.1, h.2.1, Set.inter_comm I E' ▸ h.2.2⟩
  | enclosed => exact ⟨h.1, h.2.1, h.2.2.1, Set.inter_comm B B' ▸ h.2.2.2⟩
  | encloses => exact ⟨h.1, h.2.1, h.2.2.1, Set.inter_comm B B' ▸ h.2.2.2⟩
  | cross => exact h

/-- C23: exchanging regions gives the complement. -/
theorem C23_regions {context : Context K} (hc : context.Exact) {a b : Region K}
    (ha : a.Simple) (hb : b.Simple) :
    planar.regionInRegion b a context = (planar.regionInRegion a b context).map Relation.complement := by
  obtain ⟨r, hr, h⟩ := C32_region_in_region hc ha hb
  rw [hr]
  exact (C32_region_in_region_iff hc hb ha _).mpr h.swap

theorem SetsRel.swap {S T : Set (Point K)} {r : Relation} (h : SetsRel S T r) :
    SetsRel T S r.complement := by
  have share : ¬ SharesPiece S T → ¬ SharesPiece T S := fun h k => h k.symm
  cases r with
  | equal => exact Eq.symm h
  | component => exact h
  | composite => exact h
  | overlap => exact ⟨h.2.1, h.1, h.2.2.symm⟩
  | cross => exact ⟨Set.inter_comm S T ▸ h.1, share h.2⟩
  | touch => exact ⟨Set.inter_comm S T ▸ h.1, share h.2⟩
  | disjoint => exact (Set.inter_comm _ _).trans h
  | _ => exact h

/-- C23: exchanging multisegments gives the complement, up to `TOUCH` and `CROSS`. -/
theorem C23_multisegments_partial {context : Context K} (hc : context.Exact)
    {a b : Multisegment K} (ha : a.segments ≠ []) (hb : b.segments ≠ [])
    (va : SegmentsValid a.segments) (vb : SegmentsValid b.segments) :
    ∃ r r', planar.multisegmentInMultisegment a b context = .ok r ∧
      planar.multisegmentInMultisegment b a context = .ok r' ∧
      (r' = r.complement ∨ (r ∈ [Relation.touch, .cross] ∧ r' ∈ [Relation.touch, .cross])) := by
  obtain ⟨r, hr, h⟩ := C18_multisegment_in_multisegment hc ha hb va vb
  obtain ⟨r', hr', h'⟩ := C18_multisegment_in_multisegment hc hb ha vb va
  refine ⟨r, r', hr, hr', ?_⟩
  have piece : ∀ {l : List (Segment K)}, l ≠ [] → SegmentsValid l →
      ∃ u : Segment K, u.Nondegenerate ∧ u.pts ⊆ segsPts l := fun hl vl => by
    obtain ⟨u, hu⟩ := List.exists_mem_of_ne_nil _ hl
    exact ⟨u, vl.1 u hu, fun x hx => ⟨u, hu, hx⟩⟩
  have k := SetsRel.cases_iff (piece hb vb) (piece ha va) h'
  have k' := SetsRel.cases_iff (piece hb vb) (piece ha va) (SetsRel.swap h)
  cases r <;> simp only [Relation.complement] at k' ⊢ <;> simp only [reduceCtorEq, true_iff, or_true,
    true_or, or_false, false_or, or_self] at k'
  all_goals first
    | exact h.elim
    | exact .inl (k.1.mpr k'.1)
    | exact .inl (k.2.1.mpr k'.2.1)
    | exact .inl (k.2.2.1.mpr k'.2.2.1)
    | exact .inl (k.2.2.2.1.mpr k'.2.2.2.1)
    | exact .inl (k.2.2.2.2.2.mpr k'.2.2.2.2.2)
    | exact .inr ⟨by simp, by
        rcases k.2.2.2.2.1.mpr k'.2.2.2.2.1 with h | h <;> simp [h]⟩

/-- C23: exchanging simple contours does not change the answer. -/
theorem C23_contours {context : Context K} (hc : context.Exact) {a b : Contour K}
    (ha : a.Simple) (hb : b.Simple) :
    planar.contourInContour b a context = planar.contourInContour a b context := by
  obtain ⟨r, hr, h⟩ := C36_contour_in_contour_partial hc ha hb
  obtain ⟨r', hr', h'⟩ := C36_contour_in_contour_partial hc hb ha
  have share : ¬ SharesPiece a.pts b.pts ↔ ¬ SharesPiece b.pts a.pts :=
    ⟨fun h k => h k.symm, fun h k => h k.symm⟩
  have key : planar.contourInContour a b context = .ok .touch ↔
      planar.contourInContour b a context = .ok .touch := by
    rw [(C36_cross_touch hc ha hb).2, (C36_cross_touch hc hb ha).2, share, Set.inter_comm a.pts]
    simp only [or_comm]
  by_cases ht : planar.contourInContour a b context = .ok .touch
  · rw [ht, key.mp ht]
  · have ht' : planar.contourInContour b a context ≠ .ok .touch := fun h => ht (key.mpr h)
    have n : r ≠ .touch := by rintro rfl; exact ht hr
    have n' : r' ≠ .touch := by rintro rfl; exact ht' hr'
    have h := h.resolve_right fun k => n k.1
    have h' := h'.resolve_right fun k => n' k.1
    rw [hr, hr', ContoursRel.unique hb h' (h.symm ha hb)]

/-- C23: exchanging segments gives the complement. -/
theorem C23_segments {context : Context K} (hc : context.Exact) {l r : Segment K}
    (hl : l.Nondegenerate) (hr : r.Nondegenerate) :
    planar.segmentInSegment r l context = (planar.segmentInSegment l r context).complement :=
  (C02_segment_in_segment_symmetries hc hl hr).2.1

/-- A triangle in a triangle. -/
theorem C23_example :
    planar.regionInRegion exampleRegion ⟨[⟨1, 1⟩, ⟨2, 1⟩, ⟨1, 2⟩]⟩ reference.context = .ok .cover := by
  rw [C23_regions reference.context_exact (Contour.simple_of_check (by decide +kernel))
    exampleRegion_simple]
  decide +kernel

end Orient.Props
