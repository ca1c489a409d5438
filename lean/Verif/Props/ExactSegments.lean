import Verif.Lemmas.AlongExact
import Verif.Props.SegmentAlongRegion

/-! C75: what `segment_in_region` answers, and exactly when it is wrong.

C13 says that the answer is right, which is false; C43 and C66 say when it is right.  Here the answer is
described also if it is wrong.  What is left out are segments with both endpoints on a clockwise contour, one
of them a vertex, where the code compares directions with a vertex which is not a neighbour. -/

set_option linter.unusedSectionVars false

namespace Orient.Props

variable {K : Type} [Field K] [LinearOrder K] [IsStrictOrderedRing K]

open Segment

theorem _root_.Orient.Contour.Outwards.nonempty {c : Contour K} {p q : Point K} (h : c.Outwards p q) :
    ((⟨p, q⟩ : Segment K).pts ∩ c.exterior).Nonempty := by
  obtain ⟨t, t0, t1, ht⟩ := h
  exact ⟨_, ⟨t, t0.le, t1, rfl⟩, ht t t0 le_rfl⟩

theorem _root_.Orient.Contour.LooksOutside.nonempty {c : Contour K} {s : Segment K} (h : c.LooksOutside s) :
    (s.pts ∩ c.exterior).Nonempty := by
  rcases h with h | ⟨-, h | ⟨-, h | ⟨h, -⟩⟩⟩
  · exact ⟨_, start_mem _, h⟩
  · exact ⟨_, finish_mem _, h⟩
  · have := h.nonempty
    rwa [show (⟨s.finish, s.start⟩ : Segment K) = s.reverse from rfl, pts_reverse] at this
  · exact h.nonempty

/-- C75: what `segment_in_region` answers: `CROSS` if the segment crosses an edge at an inner point of both or
goes through a vertex between the two edges which meet there; `COMPONENT` if it is a part of an edge; `WITHIN`
or `DISJOINT` if it does not meet the contour; otherwise `TOUCH` if the first endpoint which is not on the contour
is outside, or if both are on the contour and the segment goes outwards from one of them, where the start does not
count if it is a vertex, not the last one, at which the contour does not turn left; and `ENCLOSED` else. -/
theorem C75_segment_in_region {context : Context K} (hc : context.Exact) {s : Segment K}
    (hs : s.Nondegenerate) {c : Contour K} (h : c.Simple)
    (hside : s.start ∉ c.pts ∨ s.finish ∉ c.pts ∨ Counterclockwise c ∨
      (s.start ∉ c.vertices ∧ s.finish ∉ c.vertices)) :
    ∃ r, planar.segmentInRegion s c context = .ok r ∧ ∀ q,
      SegmentAnswer
        ((∃ e ∈ c.edgeList, ∃ p, s.pts ∩ e.pts = {p} ∧ ¬ s.IsEndpoint p ∧ ¬ e.IsEndpoint p) ∨
          ∃ a w b, ⟨a, w⟩ ∈ c.edgeList ∧ ⟨w, b⟩ ∈ c.edgeList ∧ w ∈ s.pts ∧ ¬ s.IsEndpoint w ∧
            cross s.start s.finish a * cross s.start s.finish b < 0)
        (∃ e ∈ c.edgeList, s.pts ⊆ e.pts) (c.LooksOutside s)
        s.pts c.interior c.pts c.exterior q ↔ q = r := by
  change ∃ r, _ ∧ ∀ q, SegmentAnswer (CrossesEdges c s) _ _ _ _ _ _ q ↔ q = r
  obtain ⟨r, hr, -⟩ := C66_always_answers hc hs h
  refine ⟨r, hr, ?_⟩
  -- it is enough to show that `r` is described, and that something applies
  have only : ∀ {X Y O : Prop} {S I B E : Set (Point K)}, SegmentAnswer X Y O S I B E r →
      (X ∨ Y ∨ S ⊆ I ∨ S ⊆ E ∨ (S ∩ B).Nonempty) → ∀ q, SegmentAnswer X Y O S I B E q ↔ q = r := by
    intro X Y O S I B E h1 h2 q
    refine ⟨fun h' => ?_, fun e => e ▸ h1⟩
    obtain ⟨a1, a2, a3, a4, a5⟩ := h1
    obtain ⟨b1, b2, b3, b4, b5⟩ := h'
    by_cases hX : X
    · rw [a1 hX, b1 hX]
    by_cases hY : Y
    · rw [a2 hY, b2 hY]
    rcases h2 with h2 | h2 | h2 | h2 | h2
    · exact absurd h2 hX
    · exact absurd h2 hY
    · rw [a3 h2, b3 h2]
    · rw [a4 h2, b4 h2]
    · by_cases hO : O
      · rw [(a5 hX hY h2).1 hO, (b5 hX hY h2).1 hO]
      · rw [(a5 hX hY h2).2 hO, (b5 hX hY h2).2 hO]
  have hX : CrossesEdges c s → r = .cross := fun h' => by
    have := (C66_cross hc hs h).mpr h'
    rw [hr] at this
    exact Except.ok.inj this
  have hY : (∃ e ∈ c.edgeList, s.pts ⊆ e.pts) → r = .component := fun h' => by
    have := (C66_component hc hs h).mpr h'
    rw [hr] at this
    exact Except.ok.inj this
  obtain ⟨d1, d2⟩ := C66_disjoint_within hc hs h
  have hW : s.pts ⊆ c.interior → r = .within := fun h' => by
    have := d2.mpr h'
    rw [hr] at this
    exact Except.ok.inj this
  have hD : s.pts ⊆ c.exterior → r = .disjoint := fun h' => by
    have := d1.mpr h'
    rw [hr] at this
    exact Except.ok.inj this
  rcases segmentInRegion_cases hc hs h hr with ⟨rfl, h'⟩ | ⟨rfl, h'⟩ | ⟨h0, h'⟩ | ⟨hne, hnX, hnsub, hr2, c1, c2, c3, c4⟩
  · exact only ⟨hX, hY, hW, hD, fun hn => absurd h' hn⟩ (.inl h')
  · exact only ⟨hX, hY, hW, hD, fun _ hn => absurd h' hn⟩ (.inr (.inl h'))
  · refine only ⟨hX, hY, hW, hD, fun _ _ hn => absurd h0 hn.ne_empty⟩ ?_
    rcases h' with rfl | rfl
    · exact .inr (.inr (.inr (.inl (d1.mp hr))))
    · exact .inr (.inr (.inl (d2.mp hr)))
  refine only ⟨hX, hY, hW, hD, fun _ _ _ => ?_⟩ (.inr (.inr (.inr (.inr hne))))
  have onI : ∀ {x : Point K}, x ∈ c.interior → x ∈ c.exterior → False := fun h1 h2 => Contour.not_both h1 h2
  by_cases s3 : s.start ∈ c.pts
  swap
  · rcases Contour.cover s3 with hi | hi
    · refine ⟨?_, fun _ => c2 hi⟩
      rintro (h' | ⟨h', -⟩)
      · exact (onI hi h').elim
      · exact absurd h' s3
    · exact ⟨fun _ => c1 hi, fun hn => absurd (.inl hi) hn⟩
  have s4 : s.start ∉ c.exterior := fun h' => h'.1 s3
  by_cases f3 : s.finish ∈ c.pts
  swap
  · rcases Contour.cover f3 with hi | hi
    · refine ⟨?_, fun _ => c4 s3 hi⟩
      rintro (h' | ⟨-, h' | ⟨h', -⟩⟩)
      · exact absurd h' s4
      · exact (onI hi h').elim
      · exact absurd h' f3
    · exact ⟨fun _ => c3 s3 hi, fun hn => absurd (.inr ⟨s3, .inl hi⟩) hn⟩
  have f4 : s.finish ∉ c.exterior := fun h' => h'.1 f3
  have hO : c.LooksOutside s ↔
      c.Outwards s.finish s.start ∨ c.Outwards s.start s.finish ∧ ¬ c.NotLeft s.start := by
    unfold Contour.LooksOutside
    simp only [s3, s4, f3, f4, true_and, false_or]
  rw [hO]
  have hside := (hside.resolve_left (not_not.mpr s3)).resolve_left (not_not.mpr f3)
  obtain ⟨i, e, hi, he, hpe, hfirst⟩ := locateLoop_first hc s.start c.edgeList 0 false s3
  obtain ⟨j, f, hj, hf, hpf⟩ := locateLoop_index hc s.finish c.edgeList 0 false f3
  have hi : region.locatePointIndexed c s.start context = (some (i : Int), .boundary) := by
    unfold region.locatePointIndexed
    rw [hc.contourSegments]
    simpa using hi
  have hj : region.locatePointIndexed c s.finish context = (some (j : Int), .boundary) := by
    unfold region.locatePointIndexed
    rw [hc.contourSegments]
    simpa using hj
  obtain ⟨p, v, q, hl, hn, hside⟩ : ∃ p v q, c.LeastCorner p v q ∧ cross p v q ≠ 0 ∧
      (0 < cross p v q ∨ (s.start ∉ c.vertices ∧ s.finish ∉ c.vertices)) := by
    rcases hside with ⟨p, v, q, hl, h⟩ | h'
    · exact ⟨p, v, q, hl, h.ne', .inl h⟩
    · obtain ⟨p, v, q, hl, hn⟩ := h.leastCorner
      exact ⟨p, v, q, hl, hn, .inr h'⟩
  have notEnd : ∀ {x : Point K} {k : Nat} {e : Segment K}, c.edgeList[k]? = some e → x ∉ c.vertices →
      ¬ e.IsEndpoint x := by
    intro x k e he hx hend
    have h2 : 2 ≤ c.vertices.length := by have := h.three; omega
    have hk : k < c.vertices.length := by
      rw [← Contour.length_edgeList]; exact (List.getElem?_eq_some_iff.mp he).1
    obtain ⟨k', hk'⟩ := c.exists_prev hk
    rcases hend with rfl | rfl
    · exact hx (List.mem_of_getElem? (Contour.edge_start c h2 hk' he))
    · exact hx (List.mem_of_getElem? (Contour.edge_finish c he))
  have t1 := touchesAtStart_exact hc h hl hn he hpe hfirst hs (hside.imp_right fun h => notEnd he h.1)
  have t2 := touchesAtEnd_exact hc h hl hn hf hpf (Ne.symm hs) (hside.imp_right fun h => notEnd hf h.2)
  obtain ⟨b, hb⟩ := touchesAtStart_total context (context.angleOrientation p v q) h.three he s.start s.finish
  obtain ⟨b', hb'⟩ := touchesAtEnd_total context (context.angleOrientation p v q) h.three hf s.start s.finish
  rw [← t1, ← t2, hb, hb']
  obtain ⟨r', hr', hrel⟩ := region.relateSegmentToContour_spec hc hs h
  have hr'' : r' = .touch ∨ r' = .overlap := by
    cases r' <;> simp only [RegionContourRel] at hrel
    case disjoint => exact absurd hrel hne.ne_empty
    case touch => exact .inl rfl
    case overlap => exact .inr rfl
    case cross => exact absurd hrel hnX
    case component => exact absurd hrel hnsub
  have e1 : ¬ (r' = .cross ∨ r' = .component) := by rcases hr'' with rfl | rfl <;> simp
  have e2 : r' ≠ .disjoint := by rcases hr'' with rfl | rfl <;> simp
  unfold planar.segmentInRegion region.relateSegment at hr
  simp only [hr', hi, hj, bind, Except.bind, pure, Except.pure, reduceCtorEq, if_false,
    contour.orientation_eq context h.nodup hl, hb, hb', e1, e2] at hr
  cases b <;> cases b' <;> simp at hr ⊢ <;> exact hr.symm

/-- C75: the answer is right unless the segment has inner and outer points although it does not cross
edges, or it is a part of the contour but not of a single edge, or it touches the region but does not look
like that. -/
theorem C75_right_iff {context : Context K} (hc : context.Exact) {s : Segment K} (hs : s.Nondegenerate)
    {c : Contour K} (h : c.Simple)
    (hside : s.start ∉ c.pts ∨ s.finish ∉ c.pts ∨ Counterclockwise c ∨
      (s.start ∉ c.vertices ∧ s.finish ∉ c.vertices)) :
    ∃ r, planar.segmentInRegion s c context = .ok r ∧ (SegmentRegionRel s c r ↔
      ((s.pts ∩ c.interior).Nonempty → (s.pts ∩ c.exterior).Nonempty →
        (∃ e ∈ c.edgeList, ∃ p, s.pts ∩ e.pts = {p} ∧ ¬ s.IsEndpoint p ∧ ¬ e.IsEndpoint p) ∨
          ∃ a w b, ⟨a, w⟩ ∈ c.edgeList ∧ ⟨w, b⟩ ∈ c.edgeList ∧ w ∈ s.pts ∧ ¬ s.IsEndpoint w ∧
            cross s.start s.finish a * cross s.start s.finish b < 0) ∧
      (s.pts ⊆ c.pts → ∃ e ∈ c.edgeList, s.pts ⊆ e.pts) ∧
      (s.pts ∩ c.interior = ∅ → (s.pts ∩ c.exterior).Nonempty → (s.pts ∩ c.pts).Nonempty →
        c.LooksOutside s)) := by
  change ∃ r, _ ∧ (_ ↔ (_ → _ → CrossesEdges c s) ∧ _)
  obtain ⟨r, hr, ha⟩ := C75_segment_in_region hc hs h hside
  refine ⟨r, hr, ?_⟩
  obtain ⟨a1, a2, a3, a4, a5⟩ := (ha r).mpr rfl
  change CrossesEdges c s → _ at a1
  change ¬ CrossesEdges c s → _ at a5
  have kX : CrossesEdges c s → (s.pts ∩ c.interior).Nonempty ∧ (s.pts ∩ c.exterior).Nonempty :=
    h.crosses_edges hs
  have kY : (∃ e ∈ c.edgeList, s.pts ⊆ e.pts) → s.pts ⊆ c.pts := fun ⟨e, he, hse⟩ =>
    hse.trans (subset_segsPts he)
  have kO : c.LooksOutside s → (s.pts ∩ c.exterior).Nonempty := fun h => h.nonempty
  have kB : ¬ (s.pts ∩ c.pts).Nonempty → s.pts ⊆ c.interior ∨ s.pts ⊆ c.exterior := fun hno => by
    obtain ⟨d1, d2⟩ := C66_disjoint_within hc hs h
    rcases segmentInRegion_cases hc hs h hr with ⟨-, h'⟩ | ⟨-, h'⟩ | ⟨h0, h'⟩ | ⟨hne, -⟩
    · refine absurd ?_ hno
      rcases h' with ⟨e, he, p, hp, -⟩ | ⟨p, v, q, h1, -, h2, -⟩
      · have : p ∈ s.pts ∩ e.pts := hp ▸ rfl
        exact ⟨p, this.1, e, he, this.2⟩
      · exact ⟨v, h2, _, h1, finish_mem _⟩
    · exact absurd ⟨_, start_mem s, kY h' (start_mem s)⟩ hno
    · rcases h' with rfl | rfl
      · exact .inr (d1.mp hr)
      · exact .inl (d2.mp hr)
    · exact absurd hne hno
  have n1 := c.interior_pts
  have n2 := c.interior_exterior
  have n3 := c.exterior_pts
  have nS : s.start ∈ s.pts := start_mem s
  have cov : ∀ x, x ∉ c.pts → x ∈ c.interior ∨ x ∈ c.exterior := fun x => Contour.cover
  generalize CrossesEdges c s = X at *
  generalize (∃ e ∈ c.edgeList, s.pts ⊆ e.pts) = Y at *
  generalize c.LooksOutside s = O at *
  unfold SegmentRegionRel
  generalize c.interior = I at *
  generalize c.exterior = E at *
  generalize c.pts = B at *
  generalize s.pts = S at *
  generalize s.start = x₀ at *
  clear ha hr hside hs h
  by_cases hX : X
  · obtain rfl := a1 hX
    have := kX hX
    refine ⟨fun _ => ⟨fun _ _ => hX, fun h' => ?_, fun h' => absurd h' this.1.ne_empty⟩, fun _ => this⟩
    obtain ⟨x, x1, x2⟩ := this.1
    exact absurd ⟨x2, h' x1⟩ (Set.eq_empty_iff_forall_notMem.mp n1 x)
  by_cases hY : Y
  · obtain rfl := a2 hY
    have := kY hY
    refine ⟨fun _ => ⟨fun ⟨x, x1, x2⟩ => ?_, fun _ => hY, fun _ ⟨x, x1, x2⟩ => ?_⟩, fun _ => this⟩
    · exact absurd ⟨x2, this x1⟩ (Set.eq_empty_iff_forall_notMem.mp n1 x)
    · exact absurd ⟨this x1, x2⟩ (Set.eq_empty_iff_forall_notMem.mp n3 x)
  by_cases hB : (S ∩ B).Nonempty
  · obtain ⟨b1, b2⟩ := a5 hX hY hB
    by_cases hO : O
    · obtain rfl := b1 hO
      have := kO hO
      simp only [LinearCompoundRel, Set.subset_def, Set.eq_empty_iff_forall_notMem, Set.Nonempty,
        Set.mem_inter_iff] at *
      grind
    · obtain rfl := b2 hO
      constructor
      · rintro ⟨h1, h2, -⟩
        refine ⟨fun _ h' => absurd h1 h'.ne_empty, fun h' => ?_, fun h' => absurd h' h2.ne_empty⟩
        obtain ⟨x, x1, x2⟩ := h2
        exact absurd ⟨x2, h' x1⟩ (Set.eq_empty_iff_forall_notMem.mp n1 x)
      · rintro ⟨h1, h2, h3⟩
        have hE : S ∩ E = ∅ := by
          by_contra hE
          have hE := Set.nonempty_iff_ne_empty.mpr hE
          by_cases hI : (S ∩ I).Nonempty
          · exact hX (h1 hI hE)
          · exact hO (h3 (Set.not_nonempty_iff_eq_empty.mp hI) hE hB)
        refine ⟨hE, ?_, hB⟩
        by_contra hI
        refine hY (h2 fun x hx => ?_)
        by_contra hxB
        rcases cov x hxB with h' | h'
        · exact hI ⟨x, hx, h'⟩
        · exact Set.eq_empty_iff_forall_notMem.mp hE x ⟨hx, h'⟩
  · rcases kB hB with hI | hE
    · obtain rfl := a3 hI
      simp only [LinearCompoundRel, Set.subset_def, Set.eq_empty_iff_forall_notMem, Set.Nonempty,
        Set.mem_inter_iff] at *
      grind
    · obtain rfl := a4 hE
      simp only [LinearCompoundRel, Set.subset_def, Set.eq_empty_iff_forall_notMem, Set.Nonempty,
        Set.mem_inter_iff] at *
      grind

/-! ### Concrete cases -/

/-- A step which a segment may look at from outside. -/
def exampleGap : Contour ℚ := ⟨[⟨0, 0⟩, ⟨6, 0⟩, ⟨6, 4⟩, ⟨4, 4⟩, ⟨3, 2⟩, ⟨2, 4⟩, ⟨0, 4⟩]⟩

theorem exampleGap_simple : exampleGap.Simple := Contour.simple_of_check (by decide +kernel)

theorem exampleGap_ccw : Counterclockwise exampleGap :=
  ⟨⟨0, 4⟩, ⟨0, 0⟩, ⟨6, 0⟩, ⟨6, [⟨6, 4⟩, ⟨4, 4⟩, ⟨3, 2⟩, ⟨2, 4⟩], by decide +kernel, by decide +kernel⟩,
    by decide +kernel⟩

/-- A segment over a notch with its endpoints on the contour: it goes outwards from both of them, so
`TOUCH` is answered, and that is right. -/
theorem C75_example :
    planar.segmentInRegion ⟨⟨2, 4⟩, ⟨4, 4⟩⟩ exampleGap (reference.context : Context ℚ) = .ok .touch ∧
      exampleGap.LooksOutside ⟨⟨2, 4⟩, ⟨4, 4⟩⟩ := by
  have hs : (⟨⟨2, 4⟩, ⟨4, 4⟩⟩ : Segment ℚ).Nondegenerate := by unfold Segment.Nondegenerate; decide +kernel
  have e : planar.segmentInRegion ⟨⟨2, 4⟩, ⟨4, 4⟩⟩ exampleGap (reference.context : Context ℚ) = .ok .touch := by
    decide +kernel
  refine ⟨e, ?_⟩
  obtain ⟨r, hr, h⟩ := C75_segment_in_region reference.context_exact hs exampleGap_simple
    (.inr (.inr (.inl exampleGap_ccw)))
  rw [e] at hr
  cases hr
  obtain ⟨a1, a2, -, -, a5⟩ := (h .touch).mpr rfl
  by_contra hO
  have := (a5 (fun h => Relation.noConfusion (a1 h)) (fun h => Relation.noConfusion (a2 h))
    ⟨⟨2, 4⟩, start_mem _, (C10_point_in_region_unique reference.context_exact _ exampleGap .boundary).mp
      (by decide +kernel)⟩).2 hO
  cases this

/-- If it begins and ends along edges, it does not look like that, and `ENCLOSED` is answered by mistake. -/
theorem C75_example_wrong :
    planar.segmentInRegion ⟨⟨1, 4⟩, ⟨5, 4⟩⟩ exampleGap (reference.context : Context ℚ) = .ok .enclosed ∧
      ¬ exampleGap.LooksOutside ⟨⟨1, 4⟩, ⟨5, 4⟩⟩ := by
  have hs : (⟨⟨1, 4⟩, ⟨5, 4⟩⟩ : Segment ℚ).Nondegenerate := by unfold Segment.Nondegenerate; decide +kernel
  have e : planar.segmentInRegion ⟨⟨1, 4⟩, ⟨5, 4⟩⟩ exampleGap (reference.context : Context ℚ)
    = .ok .enclosed := by decide +kernel
  refine ⟨e, fun hO => ?_⟩
  obtain ⟨r, hr, h⟩ := C75_segment_in_region reference.context_exact hs exampleGap_simple
    (.inr (.inr (.inl exampleGap_ccw)))
  rw [e] at hr
  cases hr
  obtain ⟨a1, a2, -, -, a5⟩ := (h .enclosed).mpr rfl
  have := (a5 (fun h => Relation.noConfusion (a1 h)) (fun h => Relation.noConfusion (a2 h))
    ⟨⟨1, 4⟩, start_mem _, (C10_point_in_region_unique reference.context_exact _ exampleGap .boundary).mp
      (by decide +kernel)⟩).1 hO
  cases this

end Orient.Props
